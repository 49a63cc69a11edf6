import Verif.Model.Context
import Verif.Model.Valve
import Mathlib.Algebra.Order.Round
import Mathlib.Data.Int.Log
import Mathlib.Data.Rat.Floor

/-!
# Model of writing and reading checkpoints

Source: `/repo/src/AMReX/PatchHierarchy.cpp`, `/repo/src/AMReX/cutcell/PatchHierarchy.cpp`, `/repo/include/fub/Duration.hpp`,
`/repo/include/fub/AMReX/boundary_condition/PressureValveBoundary.hpp`, `/repo/include/fub/AMReX/IgniteDetonation.hpp`,
`/repo/examples/AMReX/EB/2D/SEC_Plenum_Arrhenius.cpp`, `/repo/examples/AMReX/EB/3D/MultiTube.cpp`.

Simplifications: the header is a stream of tokens (words, integers, floating point numbers, box arrays and line ends) instead of characters; a floating point number in the
text is the rational number that its digits denote. Box arrays, cell data and node data are values of abstract types. `VisMF::Write` and `VisMF::Read` of AMReX
store the bytes of the data of a level: a level file is absent, torn (it was not written to its end, reading it aborts) or complete. MPI ranks other than the one that writes the header take
part only through the order in which the files are completed, which is arbitrary here.
-/

namespace Fub

/-- What the checkpoint functions see of a `PatchLevel`, /repo/include/fub/AMReX/PatchHierarchy.hpp:142-150; `nodes` and `faces` are null pointers unless the data
description has node or face components (/repo/src/AMReX/PatchHierarchy.cpp:119-148). -/
structure CkLevel (K B D N : Type) where
  time : K
  cycles : Int
  boxes : B
  data : D
  nodes : Option N
  faces : Option N
deriving DecidableEq

/-- A token of the header file. `torn` is a token that was cut off so that it cannot be read any more. Serves the model of /repo/src/AMReX/PatchHierarchy.cpp:325-364. -/
inductive CkTok (K B : Type) where
  | word (s : String)
  | int (z : Int)
  | num (q : K)
  | boxes (b : B)
  | nl
  | torn
deriving DecidableEq

section
variable {K B D N : Type}

/-- The header file that `WriteCheckpointFile` writes: title line, `nlevels - 1`, the cycles, the time points printed by `fmt` (the stream has `precision(17)`) and the box
arrays. /repo/src/AMReX/PatchHierarchy.cpp:325-364, /repo/src/AMReX/cutcell/PatchHierarchy.cpp:665-702 -/
def ckHeader (fmt : K → K) (title : String) (h : List (CkLevel K B D N)) : List (CkTok K B) :=
  [.word title, .nl, .int ((h.length : Int) - 1), .nl] ++ h.map (fun l => .int l.cycles) ++ [.nl]
    ++ h.map (fun l => .num (fmt l.time)) ++ [.nl] ++ h.flatMap (fun l => [.boxes l.boxes, .nl])

/-- `std::getline`: the tokens up to the next line end, and what follows it. Used in /repo/src/AMReX/PatchHierarchy.cpp:389-412. -/
def ckGetline [DecidableEq K] [DecidableEq B] : List (CkTok K B) → List (CkTok K B) × List (CkTok K B)
  | [] => ([], [])
  | .nl :: ts => ([], ts)
  | t :: ts => ((t :: (ckGetline ts).1), (ckGetline ts).2)

/-- `std::stoi(line)`; `none` is the exception that is thrown when the line does not start with an integer. /repo/src/AMReX/PatchHierarchy.cpp:394 -/
def ckStoi : List (CkTok K B) → Option Int
  | .int z :: _ => some z
  | _ => none

/-- `lis >> cycles[i]` for `n` entries: after the first failure all remaining entries are zero, and nobody looks at the state of the stream.
/repo/src/AMReX/PatchHierarchy.cpp:400-405 -/
def ckInts : Nat → List (CkTok K B) → List Int
  | 0, _ => []
  | n + 1, .int z :: ts => z :: ckInts n ts
  | n + 1, _ => 0 :: ckInts n []

/-- `lis >> time_points[i]` for `n` entries; an integer can be read as a number, too. /repo/src/AMReX/PatchHierarchy.cpp:408-413 -/
def ckNums [Zero K] [IntCast K] (parse : K → K) : Nat → List (CkTok K B) → List K
  | 0, _ => []
  | n + 1, .num q :: ts => parse q :: ckNums parse n ts
  | n + 1, .int z :: ts => parse (z : K) :: ckNums parse n ts
  | n + 1, _ => 0 :: ckNums parse n []

/-- `ba.readFrom(is)` for `n` levels; line ends are white space. `none` is the call of `amrex::Error` when no box array follows.
/repo/src/AMReX/PatchHierarchy.cpp:415-418 -/
def ckBoxes : Nat → List (CkTok K B) → Option (List B)
  | 0, _ => some []
  | n + 1, .nl :: ts => ckBoxes (n + 1) ts
  | n + 1, .boxes b :: ts => (ckBoxes n ts).map (b :: ·)
  | _ + 1, _ => none
termination_by n ts => (n, ts.length)

/-- The part of `ReadCheckpointFile` that reads the header: time points, cycles and box arrays of all levels. The title line is skipped unread. A finest level below −1 makes the
vector constructors throw. /repo/src/AMReX/PatchHierarchy.cpp:386-428 -/
def ckReadHeader [DecidableEq K] [DecidableEq B] [Zero K] [IntCast K] (parse : K → K) (ts : List (CkTok K B)) : Option (List (K × Int × B)) :=
  let r1 := (ckGetline ts).2
  let l2 := ckGetline r1
  match ckStoi l2.1 with
  | none => none
  | some finest =>
    if finest < -1 then none
    else
      let n := (finest + 1).toNat
      let l3 := ckGetline l2.2
      let l4 := ckGetline l3.2
      (ckBoxes n l4.2).map (fun bs => (ckNums parse n l4.1).zip ((ckInts n l3.1).zip bs))

/-- A file with the data of a level. Serves the model of /repo/examples/AMReX/EB/2D/SEC_Plenum_Arrhenius.cpp:772-793. -/
inductive CkFile (D : Type) where
  | torn
  | full (d : D)
deriving DecidableEq

/-- A checkpoint directory: the header file and the files `Level_<l>/data`. Serves the model of /repo/src/AMReX/PatchHierarchy.cpp:323. -/
structure CkDir (K B D : Type) where
  header : Option (List (CkTok K B))
  data : Nat → Option (CkFile D)

/-- The directory that `PreBuildDirectorHierarchy` leaves behind; AMReX renames an existing directory of that name. /repo/src/AMReX/PatchHierarchy.cpp:323 -/
def CkDir.clean : CkDir K B D := ⟨none, fun _ => none⟩

/-- A file operation of `WriteCheckpointFile` after the directory was built. Serves the model of /repo/src/AMReX/PatchHierarchy.cpp:320-371. -/
inductive CkOp (K B D : Type) where
  | header (ts : List (CkTok K B))
  | level (l : Nat) (d : D)

/-- The completed operation. Serves the model of /repo/src/AMReX/PatchHierarchy.cpp:320-371. -/
def CkOp.done (op : CkOp K B D) (s : CkDir K B D) : CkDir K B D :=
  match op with
  | .header ts => { s with header := some ts }
  | .level l d => { s with data := Function.update s.data l (some (.full d)) }

/-- The file operations of `WriteCheckpointFile`. /repo/src/AMReX/PatchHierarchy.cpp:320-371, /repo/src/AMReX/cutcell/PatchHierarchy.cpp:661-710 -/
def ckOps (fmt : K → K) (title : String) (h : List (CkLevel K B D N)) : List (CkOp K B D) :=
  .header (ckHeader fmt title h) :: h.mapIdx (fun l v => .level l v.data)

/-- `WriteCheckpointFile` without a crash. Serves the model of /repo/src/AMReX/PatchHierarchy.cpp:320-371. -/
def ckWrite (fmt : K → K) (title : String) (h : List (CkLevel K B D N)) : CkDir K B D :=
  (ckOps fmt title h).foldl (fun s op => op.done s) CkDir.clean

/-- The loop over `VisMF::Read`; `none` is the abort when a file is absent or torn. `lev` is the number of the head of the list.
/repo/src/AMReX/PatchHierarchy.cpp:431-435 -/
def ckReadData (s : CkDir K B D) : Nat → List (K × Int × B) → Option (List (CkLevel K B D N))
  | _, [] => some []
  | lev, (t, c, b) :: rest =>
    match s.data lev with
    | some (.full d) => (ckReadData s (lev + 1) rest).map (⟨t, c, b, d, none, none⟩ :: ·)
    | _ => none

/-- `ReadCheckpointFile` of `fub::amrex`: the levels are pushed back one after the other; no node or face data is created.
/repo/src/AMReX/PatchHierarchy.cpp:373-438 -/
def ckRead [DecidableEq K] [DecidableEq B] [Zero K] [IntCast K] (parse : K → K) (s : CkDir K B D) : Option (List (CkLevel K B D N)) :=
  match s.header with
  | none => none
  | some ts =>
    match ckReadHeader parse ts with
    | none => none
    | some ls => ckReadData s 0 ls

/-- `ReadCheckpointFile` of `fub::amrex::cutcell`: the hierarchy always has `max_number_of_levels` levels, the first of which are assigned; `none` is an exception
(`patch_level_.at`), the entry `none` an empty `PatchLevel`. /repo/src/AMReX/cutcell/PatchHierarchy.cpp:549-571,649-651,712-778 -/
def ckReadCut [DecidableEq K] [DecidableEq B] [Zero K] [IntCast K] (parse : K → K) (maxLevels : Nat) (s : CkDir K B D) :
    Option (List (Option (CkLevel K B D N))) :=
  match ckRead (N := N) parse s with
  | none => none
  | some ls => if maxLevels < ls.length then none else some (ls.map some ++ List.replicate (maxLevels - ls.length) none)

/-- The constructor of the gridding algorithm copies the layout of every level of the hierarchy to arrays of length `max_number_of_levels`; `none` is an access out of range.
/repo/src/AMReX/GriddingAlgorithm.cpp:75-83 -/
def ckGridding (maxLevels : Nat) (h : List (CkLevel K B D N)) : Option (List (CkLevel K B D N)) :=
  if maxLevels < h.length then none else some h

end

/-! ### The geometry is not part of a checkpoint -/

/-- Physical position of the lower face of cell `i` of level `l`: the level geometry is made from the options that are given to the constructor of the hierarchy.
/repo/src/AMReX/PatchHierarchy.cpp:160-180 -/
def ckPosition {K : Type} [Field K] (lo dx : K) (ratio : Nat) (l : Nat) (i : Int) : K := lo + (i : K) * (dx / (ratio : K) ^ l)

/-! ### A checkpoint of several blocks -/

/-- A directory with one checkpoint directory for every block (`Tube_0`, …, `Plenum`) and one archive of further state (`ControlState`, `Ignition`, …).
/repo/examples/AMReX/EB/2D/SEC_Plenum_Arrhenius.cpp:772-793, /repo/examples/AMReX/EB/3D/MultiTube.cpp:372-397 -/
structure CkStore (K B D A : Type) where
  block : Nat → CkDir K B D
  aux : Option (CkFile A)

/-- The state of a store after the blocks `0, …, k-1` have been written completely and before anything else was touched. Serves the model of /repo/examples/AMReX/EB/2D/SEC_Plenum_Arrhenius.cpp:772-793. -/
def ckWriteBlocks {K B D A N : Type} (fmt : K → K) (hs : List (List (CkLevel K B D N))) (k : Nat) (s : CkStore K B D A) : CkStore K B D A :=
  { s with block := fun i => if i < k then (match hs[i]? with | some h => ckWrite fmt "Checkpoint File" h | none => s.block i) else s.block i }

/-- `WriteCheckpoint` of the examples: the blocks one after the other, then the archive. Serves the model of /repo/examples/AMReX/EB/2D/SEC_Plenum_Arrhenius.cpp:772-793. -/
def ckWriteAll {K B D A N : Type} (fmt : K → K) (hs : List (List (CkLevel K B D N))) (a : A) (s : CkStore K B D A) : CkStore K B D A :=
  { ckWriteBlocks fmt hs hs.length s with aux := some (.full a) }

/-- Reading a store with `n` blocks. /repo/examples/AMReX/EB/2D/SEC_Plenum_Arrhenius.cpp:519-531,716-726,827-836 -/
def ckReadAll {K B D A N : Type} [DecidableEq K] [DecidableEq B] [Zero K] [IntCast K] (parse : K → K) (n : Nat) (s : CkStore K B D A) :
    Option (List (List (CkLevel K B D N)) × A) :=
  match (List.range n).mapM (fun i => ckRead (N := N) parse (s.block i)), s.aux with
  | some hs, some (.full a) => some (hs, a)
  | _, _ => none

/-! ### Archives -/

/-- A `Duration`: a finite number or one of the special values of `double`. Serves the model of /repo/include/fub/Duration.hpp:46-54. -/
inductive CkDur (K : Type) where
  | fin (x : K)
  | posInf
  | negInf
  | nan
deriving DecidableEq

/-- `serialize` of a `Duration`: the value that goes into the archive when it is saved, which is also assigned to the object itself. When it is loaded, the object gets the value of the archive.
/repo/include/fub/Duration.hpp:46-54 -/
def CkDur.save {K : Type} (lowest : K) : CkDur K → K
  | .fin x => x
  | _ => lowest

/-- The object after it was saved. /repo/include/fub/Duration.hpp:53 -/
def CkDur.saved {K : Type} (lowest : K) (d : CkDur K) : CkDur K := .fin (d.save lowest)

/-- `static_cast<int>(valve.state)`. /repo/include/fub/AMReX/boundary_condition/PressureValveBoundary.hpp:56,70 -/
def ValveState.code : ValveState → Int
  | .openAir => 0
  | .openFuel => 1
  | .closed => 2

/-- `static_cast<PressureValveState>(state)`; other codes are `none`. /repo/include/fub/AMReX/boundary_condition/PressureValveBoundary.hpp:72 -/
def ValveState.ofCode : Int → Option ValveState
  | 0 => some .openAir
  | 1 => some .openFuel
  | 2 => some .closed
  | _ => none

/-- `oa << valve`: the state and the time of the last change to fuel; the options and the equation are not written. The numbers are written exactly.
/repo/include/fub/AMReX/boundary_condition/PressureValveBoundary.hpp:66-75,98-104 -/
def saveValve {K : Type} (v : Valve K) : Int × K := (v.state.code, v.lastFuel)

/-- `ia >> valve`. /repo/include/fub/AMReX/boundary_condition/PressureValveBoundary.hpp:66-75 -/
def loadValve {K : Type} (a : Int × K) : Option (Valve K) := (ValveState.ofCode a.1).map (⟨·, a.2⟩)

/-- `oa << ignition`: the vectors of ignition times of all tubes, without their number. /repo/include/fub/AMReX/IgniteDetonation.hpp:118-123,
/repo/include/fub/AMReX/multi_block/MultiBlockIgniteDetonation.hpp:56-62 -/
def saveIgnition {K : Type} (tubes : List (List K)) : List (List K) := tubes

/-- `ia >> ignition` into an object with `n` tubes: every vector is replaced, with its length, by the one of the archive; `none` is the exception at the end of the archive.
/repo/include/fub/AMReX/multi_block/MultiBlockIgniteDetonation.hpp:56-62 -/
def loadIgnition {K : Type} (n : Nat) (a : List (List K)) : Option (List (List K)) := if a.length < n then none else some (a.take n)

/-! ### Restarting -/

/-- The solver that the examples build from a checkpoint: the hierarchy is the one that was read, the integrator context is newly constructed and has no level data yet.
/repo/examples/AMReX/EB/2D/Divider2D.cpp:205-244, /repo/src/AMReX/IntegratorContext.cpp:129-172 -/
def restartCtx {K G Opt Meth Cb : Type} (c : Ctx K G Opt Meth Cb) (hier : List (HierLevel K G)) : Ctx K G Opt Meth Cb :=
  { c with hier := hier, data := [] }

/-- A level of the checkpoint as a level of the hierarchy of the context; its grid data is the pair of box array and values. Serves the model of /repo/include/fub/AMReX/PatchHierarchy.hpp:142-150. -/
def CkLevel.toHier {K B D N : Type} (l : CkLevel K B D N) : HierLevel K (B × D) := ⟨l.time, l.cycles, (l.boxes, l.data)⟩

end Fub
