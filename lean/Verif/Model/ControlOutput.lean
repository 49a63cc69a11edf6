import Verif.Model.Hdf5File
import Verif.Model.Control

/-!
# Model of the output of the control state of a gas turbine

Source: `/repo/src/equations/perfect_gas_mix/PlenaControlOutput.cpp`.

Simplifications: one process (rank zero), the others write nothing. The table of the fields stores references to function objects that do not live any more
(`function_ref` to temporary lambda expressions); they have no members, and calling them is modelled as calling the function.
-/

namespace Fub

/-- Insertion into a `std::map` with string keys: the entries are sorted by their keys, lexicographically by characters, and an existing key is kept. Serves the model of
/repo/src/equations/perfect_gas_mix/PlenaControlOutput.cpp:35. -/
def smapInsert {V : Type} (k : String) (v : V) : List (String × V) → List (String × V)
  | [] => [(k, v)]
  | (k', v') :: m => if k = k' then (k', v') :: m else if k.toList < k'.toList then (k, v) :: (k', v') :: m else (k', v') :: smapInsert k v m

/-- A `std::map` with string keys from an initializer list. Serves the model of /repo/src/equations/perfect_gas_mix/PlenaControlOutput.cpp:35. -/
def smapOf {V : Type} (l : List (String × V)) : List (String × V) := l.foldl (fun m p => smapInsert p.1 p.2 m) []

/-- `GetFieldMap`. /repo/src/equations/perfect_gas_mix/PlenaControlOutput.cpp:32-84 -/
noncomputable def ctlFieldMap : List (String × (ControlState → ℝ)) :=
  smapOf [
    ("current_rpm", fun s => s.rpm),
    ("power_out", fun s => s.powerOut),
    ("fuel_consumption", fun s => s.fuelConsumption),
    ("fuel_consumption_rate", fun s => s.fuelRate),
    ("efficiency", fun s => s.efficiency),
    ("compressor_pressure", fun s => s.compressor.pressure),
    ("compressor_temperature", fun s => s.compressor.temperature),
    ("compressor_power", fun s => s.compressor.power),
    ("compressor_mass_flow_in", fun s => s.compressor.massFlowIn),
    ("compressor_mass_flow_out", fun s => s.compressor.massFlowOut),
    ("compressor_SEC_Mode", fun s => if s.compressor.secMode then 1 else 0),
    ("turbine_pressure", fun s => s.turbine.pressure),
    ("turbine_temperature", fun s => s.turbine.temperature),
    ("turbine_power", fun s => s.turbine.power),
    ("turbine_mass_flow_in", fun s => s.turbine.massFlowIn),
    ("turbine_mass_flow_out", fun s => s.turbine.massFlowOut)]

/-- The content of the file: the names in `/fields` and the datasets that exist. Serves the model of
/repo/src/equations/perfect_gas_mix/PlenaControlOutput.cpp:86-146. -/
structure CtlFile where
  /-- `/fields` -/
  fields : List String
  /-- `/data` -/
  data : Option (H5Dataset ℝ)
  /-- `/times` -/
  times : Option (H5Dataset ℝ)
  /-- `/cycles` -/
  cycles : Option (H5Dataset ℤ)

/-- What is written in one output. Serves the model of /repo/src/equations/perfect_gas_mix/PlenaControlOutput.cpp:274-310. -/
structure CtlOut where
  /-- `*control_state_` at the time of the output -/
  state : ControlState
  /-- `grid.GetTimePoint()` -/
  time : ℝ
  /-- `grid.GetCycles()` -/
  cycle : ℤ

/-- `CreateHdf5Database`: datasets without rows. /repo/src/equations/perfect_gas_mix/PlenaControlOutput.cpp:86-146 -/
noncomputable def ctlCreate : CtlFile :=
  { fields := ctlFieldMap.map Prod.fst
    data := some ⟨[0, ctlFieldMap.length], fun _ => 0⟩
    times := some ⟨[0], fun _ => 0⟩
    cycles := some ⟨[0], fun _ => 0⟩ }

/-- `data_buffer_` after the copy: the values of the fields in the order of the map. /repo/src/equations/perfect_gas_mix/PlenaControlOutput.cpp:283-287
and 303-306 -/
noncomputable def ctlBuffer (s : ControlState) : List ℝ := ctlFieldMap.map fun p => p.2 s

/-- Appends to a dataset if it can be opened. The outer `none` is a read behind the end of the buffer.
/repo/src/equations/perfect_gas_mix/PlenaControlOutput.cpp:150-172 (data), 174-195 (times), 197-217 (cycles) -/
def ctlAppend {T : Type} [Zero T] (d : Option (H5Dataset T)) (size : ℕ) (mem : ℕ → T) : Option (Option (H5Dataset T)) :=
  match d with
  | none => some none
  | some ds => (h5Append ds 0 size mem).map some

/-- `WriteHdf5Database`, the first `steps` of its three appends; `steps = 3` is the whole function, smaller numbers are a crash.
/repo/src/equations/perfect_gas_mix/PlenaControlOutput.cpp:148-218 -/
noncomputable def ctlWrite (f : CtlFile) (o : CtlOut) (steps : ℕ) : Option CtlFile := do
  let buf := ctlBuffer o.state
  let d ← if 0 < steps then ctlAppend f.data buf.length fun i => buf.getD i 0 else some f.data
  let t ← if 1 < steps then ctlAppend f.times 1 fun _ => o.time else some f.times
  let c ← if 2 < steps then ctlAppend f.cycles 1 fun _ => o.cycle else some f.cycles
  return ⟨f.fields, d, t, c⟩

/-- The constructor on rank zero: an old file is renamed, then the database is created. The result is the file system and `file_path_`.
/repo/src/equations/perfect_gas_mix/PlenaControlOutput.cpp:220-271. `limit` is the largest `int`. -/
noncomputable def ctlConstruct (fs : Fs CtlFile) (path : String) (limit : ℕ) : Fs CtlFile × String :=
  let p := prepareOutput fs path limit
  (fun q => if q = p.2 then some (.file ctlCreate) else p.1 q, p.2)

/-- `operator()` on rank zero: nothing happens if the file can not be opened. /repo/src/equations/perfect_gas_mix/PlenaControlOutput.cpp:274-310, 150-151 -/
noncomputable def ctlOutput (fs : Fs CtlFile) (path : String) (o : CtlOut) (steps : ℕ) : Option (Fs CtlFile) :=
  match fs path with
  | some (.file f) => (ctlWrite f o steps).map fun f' => fun q => if q = path then some (.file f') else fs q
  | _ => some fs

/-- The outputs of one run of the program; each is completed up to the given number of steps. Serves the model of
/repo/src/equations/perfect_gas_mix/PlenaControlOutput.cpp:274-310. -/
noncomputable def ctlOutputs (path : String) : Fs CtlFile → List (CtlOut × ℕ) → Option (Fs CtlFile)
  | fs, [] => some fs
  | fs, (o, s) :: rest => match ctlOutput fs path o s with
    | none => none
    | some fs' => ctlOutputs path fs' rest

/-- One run of the program with the option `path`. Serves the model of /repo/src/equations/perfect_gas_mix/PlenaControlOutput.cpp:220-310. -/
noncomputable def ctlSession (limit : ℕ) (path : String) (fs : Fs CtlFile) (outs : List (CtlOut × ℕ)) : Option (Fs CtlFile) :=
  let p := ctlConstruct fs path limit
  ctlOutputs p.2 p.1 outs

/-- Several runs of the program one after the other with the same option `path`. Serves the model of
/repo/src/equations/perfect_gas_mix/PlenaControlOutput.cpp:220-310. -/
noncomputable def ctlSessions (limit : ℕ) (path : String) : Fs CtlFile → List (List (CtlOut × ℕ)) → Option (Fs CtlFile)
  | fs, [] => some fs
  | fs, r :: rest => match ctlSession limit path fs r with
    | none => none
    | some fs' => ctlSessions limit path fs' rest

end Fub
