import Verif.Model.Context
import Mathlib.Data.Fintype.Basic

/-!
The integrator context of several coupled blocks (one-dimensional tubes and plena with embedded boundary). Source: `/repo/src/AMReX/multi_block/MultiBlockIntegratorContext2.cpp`.

Every block is a level integrator of its own (`LevelSys` of the subcycling solver). Simplifications: what a coupling between blocks computes is arbitrary (`couple` for the exchange of ghost data, `adv` for the split steps on one level with the averaged fluxes); the access of a level that a block does not have is undefined behaviour in C++ and sets the flag `bad`, the block is left alone.
-/

namespace Fub

/-- The blocks of `MultiBlockIntegratorContext2` and the flag for undefined behaviour. /repo/include/fub/AMReX/multi_block/MultiBlockIntegratorContext2.hpp:205-215 -/
structure MBState (ι S : Type) where
  blocks : ι → S
  bad : Bool

section
variable {ι K S : Type} [Fintype ι] [DecidableEq ι]

/-- `if (block.LevelExists(level)) block.Op(...)` for all blocks. /repo/src/AMReX/multi_block/MultiBlockIntegratorContext2.cpp:139-147 -/
def forBlocks (B : ι → LevelSys K S) (level : ℕ) (op : LevelSys K S → S → S) (b : ι → S) : ι → S :=
  fun i => if (B i).levelExists (b i) level then op (B i) (b i) else b i

/-- `PostAdvanceLevel`: tubes first, then plena; the first error is returned. /repo/src/AMReX/multi_block/MultiBlockIntegratorContext2.cpp:302-323 -/
def mbPost (B : ι → LevelSys K S) (l : ℕ) (dt : K) (sub : ℕ × ℕ) : List ι → (ι → S) → (ι → S) × Option (StepErr K)
  | [], b => (b, none)
  | i :: is, b =>
    if (B i).levelExists (b i) l then
      match (B i).post l dt sub (b i) with
      | (s, none) => mbPost B l dt sub is (Function.update b i s)
      | (s, some e) => (Function.update b i s, some e)
    else mbPost B l dt sub is b

variable [Field K] [LinearOrder K]

/-- `MultiBlockIntegratorContext2` as level integrator. `p0` is the first plenum, `order` the list of all blocks. Lines of /repo/src/AMReX/multi_block/MultiBlockIntegratorContext2.cpp:
`LevelExists` 118-127, `GetRatioToCoarserLevel` 129-137, `PreAdvanceLevel` 212-299 (and `GetTimePoint(level)` of the first plenum in /repo/include/fub/solver/DimensionalSplitLevelIntegrator.hpp:182-183), `ResetCoarseFineFluxes` 610-616, `ApplyFluxCorrection` 600-607, `CoarsenConservatively` 620-628, `CompleteFromCons` 571-577, `CopyScratchToData` 70-77 (without test), `FillGhostLayerSingleLevel` 362-374, `FillGhostLayerTwoLevels` 345-358, `GetCycles` 105-107. -/
def multiSys (B : ι → LevelSys K S) (p0 : ι) (order : List ι) (couple : ℕ → (ι → S) → ι → S)
    (adv : ℕ → K → ℕ × ℕ → (ι → S) → (ι → S) × Option (StepErr K)) (stable : (ι → S) → ℕ → K) : LevelSys K (MBState ι S) where
  levelExists := fun s l => decide (∃ i, (B i).levelExists (s.blocks i) l = true)
  ratio := (B p0).ratio
  stableDt := fun s l => stable s.blocks l
  pre := fun l dt sub s =>
    let b := couple l (forBlocks B l (fun B => B.pre l dt sub) s.blocks)
    ⟨b, s.bad || !(B p0).levelExists (b p0) l⟩
  reset := fun f c s => ⟨forBlocks B f (fun B => B.reset f c) s.blocks, s.bad⟩
  adv := fun l dt sub s => (⟨(adv l dt sub s.blocks).1, s.bad⟩, (adv l dt sub s.blocks).2)
  corr := fun f c dt s => ⟨forBlocks B f (fun B => B.corr f c dt) s.blocks, s.bad⟩
  coarsen := fun f c s => ⟨forBlocks B f (fun B => B.coarsen f c) s.blocks, s.bad⟩
  complete := fun l dt s => ⟨forBlocks B l (fun B => B.complete l dt) s.blocks, s.bad⟩
  copyBack := fun l s => ⟨forBlocks B l (fun B => B.copyBack l) s.blocks, s.bad || decide (∃ i, (B i).levelExists (s.blocks i) l = false)⟩
  fillSingle := fun l s => ⟨forBlocks B l (fun B => B.fillSingle l) (couple l s.blocks), s.bad⟩
  fillTwo := fun f c s => ⟨forBlocks B f (fun B => B.fillTwo f c) (couple f s.blocks), s.bad⟩
  post := fun l dt sub s => (⟨(mbPost B l dt sub order s.blocks).1, s.bad⟩, (mbPost B l dt sub order s.blocks).2)
  cycles := fun s => (B p0).cycles (s.blocks p0)

end

section
variable {K : Type} [LinearOrder K]

/-- The step of `std::accumulate` over the blocks; `none` for a block without the level. /repo/src/AMReX/multi_block/MultiBlockIntegratorContext2.cpp:382-396 -/
def minIfExists (dt : K) : Option K → K
  | some v => min dt v
  | none => dt

/-- `ComputeStableDt(level, dir)`: tubes only in the first direction. `big` is infinity. /repo/src/AMReX/multi_block/MultiBlockIntegratorContext2.cpp:378-398 -/
def mbStableDt (big : K) (isX : Bool) (tubes plena : List (Option K)) : K :=
  plena.foldl minIfExists (if isX then tubes.foldl minIfExists big else big)

end

/-- The value returned by `PreAdvanceLevel`: the smallest first changed level of the blocks with this level (`none` for a block without it), `big` is `INT_MAX`, `maxLevels0` the maximal number of levels of the first plenum. /repo/src/AMReX/multi_block/MultiBlockIntegratorContext2.cpp:213-221, 294-298 -/
def mbPreLevel (big maxLevels0 : ℕ) (blocks : List (Option ℕ)) : ℕ :=
  let l := blocks.foldl minIfExists big
  if l = maxLevels0 then 1 else l

/-- `PostAdvanceHierarchy(dt)` without the feedback: only the plena are told. /repo/src/AMReX/multi_block/MultiBlockIntegratorContext2.cpp:410-417 -/
def mbPostHierarchy {K G Opt Meth Cb : Type} (tubes plena : List (Ctx K G Opt Meth Cb)) : List (Ctx K G Opt Meth Cb) × List (Ctx K G Opt Meth Cb) :=
  (tubes, plena.map Ctx.postAdvanceHierarchy)

/-- `AdvanceLevel` of `MultiBlockSourceTerm`: every tube with its own source term, without a test of the level. `none` is the failed assertion that there is one term per tube. /repo/include/fub/AMReX/multi_block/MultiBlockSourceTerm.hpp:61-79 -/
def mbSource {S T E : Type} (adv : T → S → S × Option E) : List T → List S → Option (List S × Option E)
  | [], [] => some ([], none)
  | t :: ts, s :: ss =>
    match adv t s with
    | (s', some e) => some (s' :: ss, some e)
    | (s', none) => (mbSource adv ts ss).map fun r => (s' :: r.1, r.2)
  | _, _ => none

/-- `ComputeStableDt` of `MultiBlockSourceTerm`: `zip` stops at the shorter list. /repo/include/fub/AMReX/multi_block/MultiBlockSourceTerm.hpp:50-58 -/
def mbSourceDt {S T K : Type} [LinearOrder K] (big : K) (dt : T → S → K) (ts : List T) (ss : List S) : K :=
  (ss.zip ts).foldl (fun d p => min d (dt p.2 p.1)) big

/-- `AdvanceLevel` of `MultiBlockIgniteDetonation` and `MultiBlockKineticSouceTerm`: only tubes that have the level. /repo/src/AMReX/multi_block/MultiBlockIgniteDetonation.cpp:46-63, /repo/src/AMReX/multi_block/MultiBlockKineticSourceTerm.cpp:25-39 -/
def mbSourceGuarded {S T E : Type} (has : S → Bool) (adv : T → S → S × Option E) : List T → List S → List S × Option E
  | t :: ts, s :: ss =>
    if has s then
      match adv t s with
      | (s', some e) => (s' :: ss, some e)
      | (s', none) => let r := mbSourceGuarded has adv ts ss; (s' :: r.1, r.2)
    else let r := mbSourceGuarded has adv ts ss; (s :: r.1, r.2)
  | _, ss => (ss, none)

end Fub
