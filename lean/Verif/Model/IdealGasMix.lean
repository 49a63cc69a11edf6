import Verif.Model.Reactor
import Verif.Model.Newton
import Verif.Model.Gas

/-!
# The equations of the ideal gas mixture and its kinetic source term

Model of `/repo/src/equations/IdealGasMix.cpp`,
`/repo/include/fub/equations/IdealGasMix.hpp` and
`/repo/src/equations/ideal_gas_mix/KineticSourceTerm.cpp`. Numbers are real.
-/

namespace Fub

/-- `IdealGasMixConservative`, `/repo/include/fub/equations/IdealGasMix.hpp:37-44`. -/
structure IgmCons (d : ℕ) (S : Type*) where
  density : ℝ
  momentum : Fin d → ℝ
  energy : ℝ
  species : S → ℝ

/-- `IdealGasMixComplete`, `/repo/include/fub/equations/IdealGasMix.hpp:66-78`. -/
structure IgmComplete (d : ℕ) (S : Type*) extends IgmCons d S where
  pressure : ℝ
  speedOfSound : ℝ
  temperature : ℝ
  cp : ℝ
  gamma : ℝ

variable {d : ℕ} {S : Type*}

/-- `Flux(Conservative&, const Complete&, Direction)`, `/repo/src/equations/IdealGasMix.cpp:25-40`; `old` is what the output
variable held before. -/
noncomputable def igmFlux (old : IgmCons d S) (q : IgmComplete d S) (dir : Fin d) : IgmCons d S :=
  if q.density ≤ 0 then old
  else
    let velocity := q.momentum dir / q.density
    { density := q.momentum dir
      momentum := fun i => velocity * q.momentum i + if i = dir then q.pressure else 0
      energy := velocity * (q.energy + q.pressure)
      species := fun s => velocity * q.species s }

/-- One lane of `Flux(ConservativeArray&, const CompleteArray&, Direction)`, `/repo/src/equations/IdealGasMix.cpp:42-56`. -/
noncomputable def igmFluxLane (q : IgmComplete d S) (dir : Fin d) : IgmCons d S :=
  let velocity := q.momentum dir / q.density
  { density := q.momentum dir
    momentum := fun i => velocity * q.momentum i + if i = dir then q.pressure else 0
    energy := velocity * (q.energy + q.pressure)
    species := fun s => velocity * q.species s }

/-- One lane of `Flux(ConservativeArray&, const CompleteArray&, MaskArray, Direction)`,
`/repo/src/equations/IdealGasMix.cpp:58-78`. -/
noncomputable def igmFluxMasked (mask : Bool) (q : IgmComplete d S) (dir : Fin d) : IgmCons d S :=
  let rho := if mask then q.density else 1
  let rhou := if mask then q.momentum dir else 0
  let velocity := rhou / rho
  let pressure := if mask then q.pressure else 0
  let energy := if mask then q.energy else 0
  { density := rhou
    momentum := fun i => velocity * (if mask then q.momentum i else 0) +
      if i = dir then pressure else 0
    energy := velocity * (energy + pressure)
    species := fun s => velocity * (if mask then q.species s else 0) }

/-- `KineticEnergy`, `/repo/include/fub/equations/IdealGasMix.hpp:181-196`. -/
noncomputable def igmKinetic (ρ : ℝ) (m : Fin d → ℝ) : ℝ := 1 / 2 * (∑ i, m i * m i) / ρ

/-- One lane of `KineticEnergy` with mask, `/repo/include/fub/equations/IdealGasMix.hpp:198-212`. -/
noncomputable def igmKineticMasked (mask : Bool) (ρ : ℝ) (m : Fin d → ℝ) : ℝ :=
  1 / 2 * (∑ i, (if mask then m i else 0) * (if mask then m i else 0)) / (if mask then ρ else 1)

/-- `Velocity`, `/repo/src/equations/IdealGasMix.cpp:113-128`. -/
noncomputable def igmVelocity (c : IgmCons d S) : Fin d → ℝ := fun i => c.momentum i / c.density

/-- One lane of `Velocity` with mask, `/repo/src/equations/IdealGasMix.cpp:130-140`. -/
noncomputable def igmVelocityMasked (mask : Bool) (c : IgmCons d S) : Fin d → ℝ :=
  fun i => (if mask then c.momentum i else 0) / (if mask then c.density else 1)

variable [Fintype S]

/-- `GetCp() / GetCv()`, `/repo/src/equations/IdealGasMix.cpp:82`. -/
noncomputable def igmGamma (m : Mechanism S ℝ) (s : ReactorState S ℝ) : ℝ := s.cp / s.cv m

/-- The value of `ComputeSpeedOfSound`, `/repo/src/equations/IdealGasMix.cpp:81-91`. -/
noncomputable def igmSpeedOfSound (m : Mechanism S ℝ) (s : ReactorState S ℝ) : ℝ :=
  Real.sqrt (igmGamma m s * s.pressure m / s.density)

/-- The four assertions of `ComputeSpeedOfSound`, `/repo/src/equations/IdealGasMix.cpp:83-89`. -/
def igmAssertions (m : Mechanism S ℝ) (s : ReactorState S ℝ) : Prop :=
  (1 < igmGamma m s ∧ igmGamma m s ≤ 2) ∧ 0 < s.pressure m ∧ 0 < s.density ∧
    0 < igmSpeedOfSound m s

/-- `CompleteFromReactor(Complete&, velocity)`, `/repo/src/equations/IdealGasMix.cpp:149-165`, and one lane of the array
version, `/repo/src/equations/IdealGasMix.cpp:167-189`. -/
noncomputable def igmCompleteFromReactor (m : Mechanism S ℝ) (s : ReactorState S ℝ)
    (v : Fin d → ℝ) : IgmComplete d S :=
  let momentum : Fin d → ℝ := fun i => s.density * v i
  { density := s.density
    momentum := momentum
    energy := s.density * s.internalEnergy m + igmKinetic s.density momentum
    species := fun i => s.density * s.massFractions i
    pressure := s.pressure m
    speedOfSound := igmSpeedOfSound m s
    temperature := s.temperature
    cp := s.cp
    gamma := igmGamma m s }

/-- One lane of `CompleteFromReactor(CompleteArray&, velocity, mask)`, `/repo/src/equations/IdealGasMix.cpp:191-211`, with
`ComputeSpeedOfSoundArray`, `/repo/src/equations/IdealGasMix.cpp:102-110`. -/
noncomputable def igmCompleteMasked (mask : Bool) (m : Mechanism S ℝ) (s : ReactorState S ℝ)
    (v : Fin d → ℝ) : IgmComplete d S :=
  let density := if mask then s.density else 0
  let momentum : Fin d → ℝ := fun i => density * v i
  let pressure := if mask then s.pressure m else 0
  let cp := if mask then s.cp else 0
  let gamma := cp / s.cv m
  { density := density
    momentum := momentum
    energy := density * s.internalEnergy m + igmKineticMasked mask density momentum
    species := fun i => density * s.massFractions i
    pressure := pressure
    speedOfSound := Real.sqrt (gamma * pressure / (if mask then s.density else 1))
    temperature := if mask then s.temperature else 0
    cp := cp
    gamma := gamma }

/-- `SetReactorStateFromComplete`, `/repo/src/equations/IdealGasMix.cpp:142-147`. -/
noncomputable def igmSetReactor (m : Mechanism S ℝ) (q : IgmComplete d S) (s : ReactorState S ℝ) :
    ReactorState S ℝ :=
  ((s.setDensity q.density).setMassFractions m q.species).setTemperature m q.temperature

/-- `SetInternalEnergy(e)` with the default tolerance, `/repo/src/equations/ideal_gas_mix/FlameMasterReactor.cpp:597-599` and
`/repo/include/fub/equations/ideal_gas_mix/FlameMasterReactor.hpp:457`. The iteration calls `SetTemperature` for each temperature it tries;
the model only keeps the last call (`igm_last_temperature` shows that the others leave no trace).
`none` is an exception. -/
noncomputable def ReactorState.setInternalEnergy (m : Mechanism S ℝ) (e : ℝ)
    (s : ReactorState S ℝ) : Option (ReactorState S ℝ) :=
  (setEnergy (fun T => (s.setTemperature m T).internalEnergy m)
    (fun T => (s.setTemperature m T).cv m) e 1e-6 s.temperature).map (fun T => s.setTemperature m T)

/-- The calls of `CompleteFromCons` before `SetInternalEnergy`, `/repo/src/equations/IdealGasMix.cpp:216-220`. -/
noncomputable def igmLoad (m : Mechanism S ℝ) (c : IgmCons d S) (s : ReactorState S ℝ) :
    ReactorState S ℝ :=
  ((s.setDensity c.density).setMassFractions m c.species).setTemperature m 300

/-- `CompleteFromCons(Complete&, const ConservativeBase&)`, `/repo/src/equations/IdealGasMix.cpp:213-226`: the reactor and the
complete state afterwards. -/
noncomputable def igmCompleteFromCons (m : Mechanism S ℝ) (s : ReactorState S ℝ) (c : IgmCons d S) :
    Option (ReactorState S ℝ × IgmComplete d S) :=
  ((igmLoad m c s).setInternalEnergy m
    ((c.energy - igmKinetic c.density c.momentum) / c.density)).map
    (fun s' => (s', igmCompleteFromReactor m s' (igmVelocity c)))

/-- The array state of the reactor in one lane after `SetDensityArray`, `SetMassFractionsArray` with
mask and `SetTemperatureArray`, `/repo/src/equations/IdealGasMix.cpp:258-262`. The tables of the lanes are those of the scalar
version (`burke_thermo_lane_partial`, C120). The array state has no separate history here: all its
members are overwritten. -/
noncomputable def igmLane [DecidableEq S] (m : Mechanism S ℝ) (first : S) (mask : Bool)
    (c : IgmCons d S) : ReactorState S ℝ :=
  { massFractions := massFractionsLaneMasked first mask c.species
    moles := fun _ => 0
    temperature := 300
    density := if mask then c.density else 1
    thermoTemp := 300
    enthalpies := (m.thermo 300).1
    heatCapacities := (m.thermo 300).2 }

/-- The complete state with all members zero, `/repo/src/equations/IdealGasMix.cpp:246-256`. -/
def igmZero (d : ℕ) (S : Type*) : IgmComplete d S :=
  { density := 0, momentum := fun _ => 0, energy := 0, species := fun _ => 0, pressure := 0
    speedOfSound := 0, temperature := 0, cp := 0, gamma := 0 }

/-- `CompleteFromCons(CompleteArray&, const ConservativeArrayBase&, MaskArray)`, `/repo/src/equations/IdealGasMix.cpp:241-269`,
for the lanes `ι`. -/
noncomputable def igmCompleteLanes [DecidableEq S] {ι : Type*} [Fintype ι] (m : Mechanism S ℝ)
    (first : S) (mask : ι → Bool) (c : ι → IgmCons d S) : Option (ι → IgmComplete d S) :=
  open Classical in
  if ∀ l, mask l = false then some (fun _ => igmZero d S)
  else
    let s := fun l => igmLane m first (mask l) (c l)
    let rho := fun l => if mask l then (c l).density else 1
    let e := fun l => ((if mask l then (c l).energy else 0) -
      igmKineticMasked (mask l) (c l).density (c l).momentum) / rho l
    (setEnergyLanes mask (fun l T => ((s l).setTemperature m T).internalEnergy m)
      (fun l T => ((s l).setTemperature m T).cv m) e 1e-6 (fun _ => 300)).map
      (fun T l => igmCompleteMasked (mask l) m ((s l).setTemperature m (T l))
        (igmVelocityMasked (mask l) (c l)))

/-- `CompleteFromCons(CompleteArray&, const ConservativeArrayBase&)`, `/repo/src/equations/IdealGasMix.cpp:228-239`, for the lanes
`ι`; `SetMassFractionsArray` without mask takes absolute values. -/
noncomputable def igmCompleteArray {ι : Type*} [Fintype ι] (m : Mechanism S ℝ)
    (c : ι → IgmCons d S) : Option (ι → IgmComplete d S) :=
  let s := fun l : ι => ({ massFractions := massFractionsLane (c l).species, moles := fun _ => 0
                           temperature := 300, density := (c l).density, thermoTemp := 300
                           enthalpies := (m.thermo 300).1, heatCapacities := (m.thermo 300).2 } :
    ReactorState S ℝ)
  (setEnergyLanes (fun _ => true) (fun l T => ((s l).setTemperature m T).internalEnergy m)
    (fun l T => ((s l).setTemperature m T).cv m)
    (fun l => ((c l).energy - igmKinetic (c l).density (c l).momentum) / (c l).density) 1e-6
    (fun _ => 300)).map
    (fun T l => igmCompleteFromReactor m ((s l).setTemperature m (T l)) (igmVelocity (c l)))

omit [Fintype S] in
/-- `Rotate`, `/repo/src/equations/IdealGasMix.cpp:275-323`, for the conservative variables. -/
def igmRotateCons (R : Fin d → Fin d → ℝ) (c : IgmCons d S) : IgmCons d S :=
  { c with momentum := rotateVec R c.momentum }

omit [Fintype S] in
/-- `Rotate` of a complete state. Serves the model of /repo/src/equations/IdealGasMix.cpp:285-323. -/
def igmRotate (R : Fin d → Fin d → ℝ) (q : IgmComplete d S) : IgmComplete d S :=
  { q with momentum := rotateVec R q.momentum }

omit [Fintype S] in
/-- `Reflect`, `/repo/src/equations/IdealGasMix.cpp:325-371`. -/
def igmReflect (n : Fin d → ℝ) (q : IgmComplete d S) : IgmComplete d S :=
  { q with momentum := reflectVec n q.momentum }

/-- One name per component, `VarNames`, `/repo/include/fub/equations/IdealGasMix.hpp:247-272`: `fields` lists the names of the members
with their numbers of components. -/
def igmVarNames (speciesNames : List String) (fields : List (String × ℕ)) : List String :=
  fields.flatMap fun f =>
    if f.2 = 1 then [f.1]
    else (List.range f.2).map fun i =>
      if f.1 = "Species" then speciesNames.getD i "" else f.1 ++ "_" ++ toString i

/-! ## The kinetic source term -/

/-- One cell of `KineticSourceTerm::AdvanceLevel`, `/repo/src/equations/ideal_gas_mix/KineticSourceTerm.cpp:57-69`. `solver` is what the ODE solver
does when it starts from a density, a temperature and concentrations. -/
noncomputable def kineticCell (m : Mechanism S ℝ) (solver : ℝ → ℝ → (S → ℝ) → OdeRun S ℝ)
    (s : ReactorState S ℝ) (q : IgmComplete d S) : ReactorState S ℝ × IgmComplete d S :=
  let s1 := ((s.setMassFractions m q.species).setTemperature m q.temperature).setDensity q.density
  let s2 := s1.advance m (solver s1.density s1.temperature (s1.updateMoles m).moles)
  (s2, igmCompleteFromReactor m s2 (igmVelocity q.toIgmCons))

/-- The loop over the cells in the order of the list, `/repo/src/equations/ideal_gas_mix/KineticSourceTerm.cpp:57-69`: one reactor serves all. -/
noncomputable def kineticCells (m : Mechanism S ℝ) (solver : ℝ → ℝ → (S → ℝ) → OdeRun S ℝ) :
    ReactorState S ℝ → List (IgmComplete d S) → List (IgmComplete d S)
  | _, [] => []
  | s, q :: qs =>
    let r := kineticCell m solver s q
    r.2 :: kineticCells m solver r.1 qs

end Fub
