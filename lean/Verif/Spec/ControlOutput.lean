import Verif.Model.ControlOutput

/-!
# Specification of the file with the control states

How a reader uses the file: the column of a quantity is found by its name in `/fields`, then the row of an output is read in `/data`, `/times` and `/cycles`.
-/

namespace Fub

/-- The quantities of a control state by their names. -/
noncomputable def ctlQuantity (s : ControlState) : String → Option ℝ
  | "current_rpm" => some s.rpm
  | "power_out" => some s.powerOut
  | "fuel_consumption" => some s.fuelConsumption
  | "fuel_consumption_rate" => some s.fuelRate
  | "efficiency" => some s.efficiency
  | "compressor_pressure" => some s.compressor.pressure
  | "compressor_temperature" => some s.compressor.temperature
  | "compressor_power" => some s.compressor.power
  | "compressor_mass_flow_in" => some s.compressor.massFlowIn
  | "compressor_mass_flow_out" => some s.compressor.massFlowOut
  | "compressor_SEC_Mode" => some (if s.compressor.secMode = true then 1 else 0)
  | "turbine_pressure" => some s.turbine.pressure
  | "turbine_temperature" => some s.turbine.temperature
  | "turbine_power" => some s.turbine.power
  | "turbine_mass_flow_in" => some s.turbine.massFlowIn
  | "turbine_mass_flow_out" => some s.turbine.massFlowOut
  | _ => none

/-- Number of rows of a dataset. -/
def h5Rows {T : Type} (d : Option (H5Dataset T)) : Option ℕ := d.bind fun ds => ds.dims.head?

/-- Reading an element of a dataset; `none` if it is outside of the extents. -/
def h5Get {T : Type} (d : Option (H5Dataset T)) (idx : List ℕ) : Option T := d.bind fun ds => if InExtent ds.dims idx then some (ds.val idx) else none

/-- Reading the quantity `name` in row `t`; `none` if there is no such column or row. -/
def ctlRead (f : CtlFile) (name : String) (t : ℕ) : Option ℝ :=
  if name ∈ f.fields then h5Get f.data [t, f.fields.idxOf name] else none

/-- A reader of the file finds exactly the control states `data`, the times of `times` and the cycles of `cycles`. -/
def CtlHolds (f : CtlFile) (data times cycles : List CtlOut) : Prop :=
  (∀ name t, ctlRead f name t = data[t]?.bind fun o => ctlQuantity o.state name) ∧ h5Rows f.data = some data.length ∧
  (∀ t, h5Get f.times [t] = times[t]?.map CtlOut.time) ∧ (∀ t, h5Get f.cycles [t] = cycles[t]?.map CtlOut.cycle)

/-- The outputs of a history of which at least `k + 1` steps were executed. -/
def ctlReached (k : ℕ) (h : List (CtlOut × ℕ)) : List CtlOut := (h.filter fun p => k < p.2).map Prod.fst

end Fub
