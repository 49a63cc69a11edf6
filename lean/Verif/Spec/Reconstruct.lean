import Verif.Model.Reconstruct

/-! Vocabulary for the reconstruction: the half step predictor of the Euler equations in primitive form. -/

namespace Fub
variable {d s t : ℕ}

/-- The time derivative of the primitive variables for the slopes `dw` in direction `ix`: the Euler equations in primitive form, with speed of sound `c` and
pressure gradient divided by the square `Msq` of the Mach number. -/
noncomputable def eulerRate (Msq c : ℝ) (w dw : Prim d s t) (ix : Fin (d + 1)) : Prim d s t :=
  let u := w.velocity ix
  { density := -(u * dw.density + w.density * dw.velocity ix)
    velocity := fun i => -(u * dw.velocity i + if i = ix then dw.pressure / (Msq * w.density) else 0)
    pressure := -(u * dw.pressure + w.density * c ^ 2 * dw.velocity ix)
    species := fun i => -(u * dw.species i)
    scalars := fun i => -(u * dw.scalars i) }

/-- The state at the upper or lower face of a cell after half a time step: half a cell width of slope and half a time step of time derivative. -/
noncomputable def predictor (Msq c : ℝ) (w dw : Prim d s t) (dt dx : ℝ) (ix : Fin (d + 1)) (upper : Bool) : Prim d s t :=
  let h := if upper then dx / 2 else -(dx / 2)
  let r := eulerRate Msq c w dw ix
  { density := w.density + h * dw.density + dt / 2 * r.density
    velocity := fun i => w.velocity i + h * dw.velocity i + dt / 2 * r.velocity i
    pressure := w.pressure + h * dw.pressure + dt / 2 * r.pressure
    species := fun i => w.species i + h * dw.species i + dt / 2 * r.species i
    scalars := fun i => w.scalars i + h * dw.scalars i + dt / 2 * r.scalars i }

end Fub
