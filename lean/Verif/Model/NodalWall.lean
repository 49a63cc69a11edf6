import Verif.Model.NodalHelm

/-!
The boundary conditions of the nodal pressure operator in two dimensions: ghost values, scaling of the right-hand side and masks.

Sources: `/repo/src/AMReX/MLMG/MLNodeHelmDualCstVel_K.cpp` and `/repo/src/AMReX/MLMG/MLNodeHelmDualCstVel_2D_K.cpp`; the files for linear velocities
(`/repo/src/AMReX/MLMG/MLNodeHelmDualLinVel_K.cpp`, `/repo/src/AMReX/MLMG/MLNodeHelmDualLinVel_2D_K.cpp:40-312`) contain the same text. The base class of AMReX applies its own copies of
`mlndhelm_applybc` and of the masks, which are the same functions with another prefix; they are modelled from the copies in this repository.
-/

namespace Fub

/-- The kinds of boundary conditions that the code distinguishes (`amrex::LinOpBCType`). Serves the model of /repo/src/AMReX/MLMG/MLNodeHelmDualCstVel_K.cpp:129-154. -/
inductive LinBC | periodic | dirichlet | neumann | inflow
  deriving DecidableEq

/-- `lobc[idim] == Neumann or lobc[idim] == inflow`. /repo/src/AMReX/MLMG/MLNodeHelmDualCstVel_K.cpp:74, 83, 143-154 -/
def LinBC.isWall (b : LinBC) : Bool := b == .neumann || b == .inflow

/-- One value for each of the four sides. Serves the model of /repo/src/AMReX/MLMG/MLNodeHelmDualCstVel_K.cpp:68-91. -/
structure Sides (α : Type) where
  xlo : α
  xhi : α
  ylo : α
  yhi : α

/-- `amrex::Box` in two dimensions, both ends included. Serves the model of /repo/src/AMReX/MLMG/MLNodeHelmDualCstVel_2D_K.cpp:205-222. -/
structure NBox where
  ilo : ℤ
  ihi : ℤ
  jlo : ℤ
  jhi : ℤ

/-- `contains`. Serves the model of /repo/src/AMReX/MLMG/MLNodeHelmDualCstVel_2D_K.cpp:225. -/
def NBox.has (b : NBox) (i j : ℤ) : Bool := decide (b.ilo ≤ i) && decide (i ≤ b.ihi) && decide (b.jlo ≤ j) && decide (j ≤ b.jhi)

/-- `strictly_contains`. Serves the model of /repo/src/AMReX/MLMG/MLNodeHelmDualCstVel_2D_K.cpp:215. -/
def NBox.strictlyHas (b v : NBox) : Bool := decide (b.ilo < v.ilo) && decide (v.ihi < b.ihi) && decide (b.jlo < v.jlo) && decide (v.jhi < b.jhi)

/-- The nodes of a box, in the order of the loops. Serves the model of /repo/src/AMReX/MLMG/MLNodeHelmDualCstVel_2D_K.cpp:222-223. -/
def NBox.points (b : NBox) : List (ℤ × ℤ) := boxNodes b.ilo b.ihi b.jlo b.jhi

/-- `amrex::grow(b, 1)`. Serves the model of /repo/src/AMReX/MLMG/MLNodeHelmDualCstVel_2D_K.cpp:222. -/
def NBox.grow1 (b : NBox) : NBox := ⟨b.ilo - 1, b.ihi + 1, b.jlo - 1, b.jhi + 1⟩

/-- `gdomain`: the domain, larger by one on the sides that are not filled. /repo/src/AMReX/MLMG/MLNodeHelmDualCstVel_2D_K.cpp:209-213 -/
def gDomain (dom : NBox) (f : Sides Bool) : NBox :=
  ⟨if f.xlo then dom.ilo else dom.ilo - 1, if f.xhi then dom.ihi else dom.ihi + 1,
   if f.ylo then dom.jlo else dom.jlo - 1, if f.yhi then dom.jhi else dom.jhi + 1⟩

section
variable {K : Type}

/-- Assignment to one element of an array. Serves the model of /repo/src/AMReX/MLMG/MLNodeHelmDualCstVel_2D_K.cpp:231-304. -/
def set2 (a : ℤ → ℤ → K) (i j : ℤ) (v : K) : ℤ → ℤ → K := fun x y => if x = i ∧ y = j then v else a x y

/-- The value that the body of the loop stores at a point outside of `gdomain`. /repo/src/AMReX/MLMG/MLNodeHelmDualCstVel_2D_K.cpp:227-305 -/
def bcValue (off : ℤ) (d : NBox) (f : Sides Bool) (a : ℤ → ℤ → K) (i j : ℤ) : K :=
  if i = d.ilo - 1 ∧ j = d.jlo - 1 ∧ (f.xlo || f.ylo) = true then
    if f.xlo && f.ylo then a (i + 1 + off) (j + 1 + off)
    else if f.xlo then a (i + 1 + off) j
    else if f.ylo then a i (j + 1 + off) else a i j
  else if i = d.ihi + 1 ∧ j = d.jlo - 1 ∧ (f.xhi || f.ylo) = true then
    if f.xhi && f.ylo then a (i - 1 - off) (j + 1 + off)
    else if f.xhi then a (i - 1 - off) j
    else if f.ylo then a i (j + 1 + off) else a i j
  else if i = d.ilo - 1 ∧ j = d.jhi + 1 ∧ (f.xlo || f.yhi) = true then
    if f.xlo && f.yhi then a (i + 1 + off) (j - 1 - off)
    else if f.xlo then a (i + 1 + off) j
    else if f.yhi then a i (j - 1 - off) else a i j
  else if i = d.ihi + 1 ∧ j = d.jhi + 1 ∧ (f.xhi || f.yhi) = true then
    if f.xhi && f.yhi then a (i - 1 - off) (j - 1 - off)
    else if f.xhi then a (i - 1 - off) j
    else if f.yhi then a i (j - 1 - off) else a i j
  else if i = d.ilo - 1 ∧ f.xlo = true then a (i + 1 + off) j
  else if i = d.ihi + 1 ∧ f.xhi = true then a (i - 1 - off) j
  else if j = d.jlo - 1 ∧ f.ylo = true then a i (j + 1 + off)
  else if j = d.jhi + 1 ∧ f.yhi = true then a i (j - 1 - off)
  else a i j

/-- `mlndhelm_bc_doit`: `off` is 0 for cell centered and 1 for nodal data. The loop works in place. /repo/src/AMReX/MLMG/MLNodeHelmDualCstVel_2D_K.cpp:204-308 -/
def bcDoit (off : ℤ) (vbx dom : NBox) (f : Sides Bool) (a : ℤ → ℤ → K) : ℤ → ℤ → K :=
  if (gDomain dom f).strictlyHas vbx then a
  else vbx.grow1.points.foldl (fun a p => if (gDomain dom f).has p.1 p.2 then a else set2 a p.1 p.2 (bcValue off dom f a p.1 p.2)) a

/-- `mlndhelm_fillbc_cc`: coefficients are mirrored at all sides that are not periodic. Only the first component of the array is touched.
/repo/src/AMReX/MLMG/MLNodeHelmDualCstVel_K.cpp:124-136 -/
def fillbcCc (vbx dom : NBox) (bc : Sides LinBC) (a : ℤ → ℤ → K) : ℤ → ℤ → K :=
  bcDoit 0 vbx dom ⟨bc.xlo != .periodic, bc.xhi != .periodic, bc.ylo != .periodic, bc.yhi != .periodic⟩ a

/-- `mlndhelm_applybc`: nodal values are mirrored at walls and inflows. /repo/src/AMReX/MLMG/MLNodeHelmDualCstVel_K.cpp:138-156 -/
def applybcNd (vbx dom : NBox) (bc : Sides LinBC) (a : ℤ → ℤ → K) : ℤ → ℤ → K :=
  bcDoit 1 vbx dom ⟨bc.xlo.isWall, bc.xhi.isWall, bc.ylo.isWall, bc.yhi.isWall⟩ a

variable [Field K]

/-- Multiplies the values on a part of the nodes. Serves the model of /repo/src/AMReX/MLMG/MLNodeHelmDualCstVel_K.cpp:77-80, 86-89. -/
def scaleOn (b : NBox) (s : K) (a : ℤ → ℤ → K) : ℤ → ℤ → K := fun i j => if b.has i j then a i j * s else a i j

/-- `mlndhelm_scale_neumann_bc` on a tile `bx` of nodes; `bdryLo` and `bdryHi` of a nodal box are its first and its last layer.
/repo/src/AMReX/MLMG/MLNodeHelmDualCstVel_K.cpp:67-93 -/
def scaleNeumann (s : K) (bx nddom : NBox) (bc : Sides LinBC) (a : ℤ → ℤ → K) : ℤ → ℤ → K :=
  let a := if bc.xlo.isWall && decide (bx.ilo = nddom.ilo) then scaleOn ⟨bx.ilo, bx.ilo, bx.jlo, bx.jhi⟩ s a else a
  let a := if bc.xhi.isWall && decide (bx.ihi = nddom.ihi) then scaleOn ⟨bx.ihi, bx.ihi, bx.jlo, bx.jhi⟩ s a else a
  let a := if bc.ylo.isWall && decide (bx.jlo = nddom.jlo) then scaleOn ⟨bx.ilo, bx.ihi, bx.jlo, bx.jlo⟩ s a else a
  if bc.yhi.isWall && decide (bx.jhi = nddom.jhi) then scaleOn ⟨bx.ilo, bx.ihi, bx.jhi, bx.jhi⟩ s a else a

/-- The part of `compRHS` for one tile of one level without cell centered source: divergence, then `mlndhelm_impose_neumann_bc`.
/repo/src/AMReX/MLMG/MLNodeHelmDualCstVel.cpp:179-195, /repo/src/AMReX/MLMG/MLNodeHelmDualCstVel_K.cpp:96-102 -/
def compRhs (dxinv dyinv : K) (bx nddom : NBox) (bc : Sides LinBC) (dmsk : ℤ → ℤ → Bool) (u v : ℤ → ℤ → K) : ℤ → ℤ → K :=
  scaleNeumann 2 bx nddom bc (nodeDivu dxinv dyinv dmsk u v)

/-- `mlndhelm_unimpose_neumann_bc`. /repo/src/AMReX/MLMG/MLNodeHelmDualCstVel_K.cpp:104-110 -/
def unimposeNeumann (bx nddom : NBox) (bc : Sides LinBC) (a : ℤ → ℤ → K) : ℤ → ℤ → K := scaleNeumann (1 / 2) bx nddom bc a

/-- `mlndhelm_set_dot_mask` on a tile. /repo/src/AMReX/MLMG/MLNodeHelmDualCstVel_2D_K.cpp:111-161 -/
def setDotMask (bx dom : NBox) (bc : Sides LinBC) (omsk : ℤ → ℤ → ℤ) (dmsk : ℤ → ℤ → K) : ℤ → ℤ → K :=
  let a : ℤ → ℤ → K := fun i j => if bx.has i j then (omsk i j : K) else dmsk i j
  let a := if bc.xlo.isWall && decide (bx.ilo = dom.ilo) then scaleOn ⟨bx.ilo, bx.ilo, bx.jlo, bx.jhi⟩ (1 / 2) a else a
  let a := if bc.xhi.isWall && decide (bx.ihi = dom.ihi) then scaleOn ⟨bx.ihi, bx.ihi, bx.jlo, bx.jhi⟩ (1 / 2) a else a
  let a := if bc.ylo.isWall && decide (bx.jlo = dom.jlo) then scaleOn ⟨bx.ilo, bx.ihi, bx.jlo, bx.jlo⟩ (1 / 2) a else a
  if bc.yhi.isWall && decide (bx.jhi = dom.jhi) then scaleOn ⟨bx.ilo, bx.ihi, bx.jhi, bx.jhi⟩ (1 / 2) a else a

end

/-- Sets a mask on a part of the nodes. Serves the model of /repo/src/AMReX/MLMG/MLNodeHelmDualCstVel_2D_K.cpp:84-108. -/
def maskOn (b : NBox) (a : ℤ → ℤ → Bool) : ℤ → ℤ → Bool := fun i j => b.has i j || a i j

/-- `mlndhelm_set_dirichlet_mask` on a tile; the mask as a truth value. /repo/src/AMReX/MLMG/MLNodeHelmDualCstVel_2D_K.cpp:64-109 -/
def setDirichletMask (bx dom : NBox) (bc : Sides LinBC) (omsk : ℤ → ℤ → ℤ) (dmsk : ℤ → ℤ → Bool) : ℤ → ℤ → Bool :=
  let a : ℤ → ℤ → Bool := fun i j => if bx.has i j && !dmsk i j then
    decide (omsk (i - 1) (j - 1) = 1) || decide (omsk i (j - 1) = 1) || decide (omsk (i - 1) j = 1) || decide (omsk i j = 1) else dmsk i j
  let a := if bc.xlo == .dirichlet && decide (bx.ilo = dom.ilo) then maskOn ⟨bx.ilo, bx.ilo, bx.jlo, bx.jhi⟩ a else a
  let a := if bc.xhi == .dirichlet && decide (bx.ihi = dom.ihi) then maskOn ⟨bx.ihi, bx.ihi, bx.jlo, bx.jhi⟩ a else a
  let a := if bc.ylo == .dirichlet && decide (bx.jlo = dom.jlo) then maskOn ⟨bx.ilo, bx.ihi, bx.jlo, bx.jlo⟩ a else a
  if bc.yhi == .dirichlet && decide (bx.jhi = dom.jhi) then maskOn ⟨bx.ilo, bx.ihi, bx.jhi, bx.jhi⟩ a else a

/-- `mlndhelm_set_nodal_mask`, with `crse_cell = 0`, `fine_cell = 1`, `crse_node = 0`, `crse_fine_node = 1`, `fine_node = 2`.
/repo/src/AMReX/MLMG/MLNodeHelmDualCstVel_2D_K.cpp:48-62, /repo/src/AMReX/MLMG/MLNodeHelmDualCstVel_K.cpp:52-56 -/
def nodalMask (cmsk : ℤ → ℤ → ℤ) (i j : ℤ) : ℤ :=
  let s := cmsk (i - 1) (j - 1) + cmsk i (j - 1) + cmsk (i - 1) j + cmsk i j
  if s = 4 * 0 then 0 else if s = 4 * 1 then 2 else 1

end Fub
