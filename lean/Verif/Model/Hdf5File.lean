import Mathlib.Data.List.Basic
import Mathlib.Algebra.Group.Defs
import Mathlib.Algebra.Group.Nat.Defs
import Mathlib.Data.Nat.Notation
import Mathlib.Data.String.Basic

/-!
The files written by the HDF5 outputs: datasets that grow by one entry for each output, the readers shipped with the code, the choice of the file name, the blocks and
probes that are written, and the ownership of HDF5 handles.

The HDF5 library is modelled by what its documentation says about the calls that are used: a dataset has extents and one element for each multi-index,
`H5Dset_extent` keeps the elements and sets new ones to the fill value, a write through a hyperslab assigns the elements of the memory buffer in row major order.
-/

namespace Fub

section
variable {K : Type}

/-- Position of a multi-index in row major order. Serves the model of /repo/src/AMReX/PatchHierarchy.cpp:467-472, 510-517. -/
def rowMajor (dims idx : List ℕ) : ℕ := (dims.zip idx).foldl (fun a p => a * p.1 + p.2) 0

/-- An HDF5 dataset: extents and elements. Serves the model of /repo/src/AMReX/PatchHierarchy.cpp:467-472, 510-517. -/
structure H5Dataset (K : Type) where
  /-- current extents -/
  dims : List ℕ
  /-- elements -/
  val : List ℕ → K

/-- The multi-index is inside of the extents. Serves the model of /repo/src/AMReX/PatchHierarchy.cpp:530-553. -/
def InExtent (dims idx : List ℕ) : Prop := idx.length = dims.length ∧ ∀ p ∈ dims.zip idx, p.2 < p.1

instance (dims idx : List ℕ) : Decidable (InExtent dims idx) := by unfold InExtent; infer_instance

/-- The multi-index is selected by the hyperslab with the given offset and count (stride and block are one). Serves the model of /repo/src/AMReX/PatchHierarchy.cpp:467-472, 510-517. -/
def InSlab (offset count idx : List ℕ) : Prop := idx.length = count.length ∧ ∀ p ∈ (offset.zip count).zip idx, p.1.1 ≤ p.2 ∧ p.2 < p.1.1 + p.1.2

instance (offset count idx : List ℕ) : Decidable (InSlab offset count idx) := by unfold InSlab; infer_instance

/-- `H5Dset_extent`; `fill` is the fill value. Serves the model of /repo/src/AMReX/PatchHierarchy.cpp:530-553. -/
def H5Dataset.setExtent (ds : H5Dataset K) (fill : K) (dims : List ℕ) : H5Dataset K :=
  ⟨dims, fun idx => if InExtent ds.dims idx then ds.val idx else fill⟩

/-- `H5Sselect_hyperslab` and `H5Dwrite` with a memory space of extents `count`; `none` if the buffer of `size` elements is shorter than the selection. Serves the model of /repo/src/AMReX/PatchHierarchy.cpp:467-472, 510-517. -/
def H5Dataset.writeSlab (ds : H5Dataset K) (offset count : List ℕ) (size : ℕ) (mem : ℕ → K) : Option (H5Dataset K) :=
  if count.prod ≤ size then
    some ⟨ds.dims, fun idx => if InSlab offset count idx then mem (rowMajor count (idx.zipWith (· - ·) offset)) else ds.val idx⟩
  else none

/-- What `WriteToHDF5` is given: number of components and extents of the fab, its memory, time point and cycle.
/repo/src/AMReX/PatchHierarchy.cpp:598-607 -/
structure GridOut (K : Type) where
  /-- `GetExtents(fab)`: components and box lengths. /repo/src/AMReX/PatchHierarchy.cpp:440-447 -/
  ext : List ℕ
  /-- `fab.dataPtr()` -/
  mem : ℕ → K
  /-- `time_point.count()` -/
  time : K
  /-- cycle number -/
  cycle : ℤ

/-- The datasets `/data`, `/times` and `/cycles` of a file; `none` if the dataset does not exist. Serves the model of /repo/src/AMReX/PatchHierarchy.cpp:449-519. -/
structure H5Grid (K : Type) where
  /-- `/data` -/
  data : Option (H5Dataset K)
  /-- `/times` -/
  times : Option (H5Dataset K)
  /-- `/cycles` -/
  cycles : Option (H5Dataset ℤ)

/-- `H5Dcreate` of a dataset and the first write of all its elements. /repo/src/AMReX/PatchHierarchy.cpp:467-472, 510-517 -/
def h5Create (fill : K) (dims : List ℕ) (size : ℕ) (mem : ℕ → K) : Option (H5Dataset K) :=
  (⟨dims, fun _ => fill⟩ : H5Dataset K).writeSlab (dims.map fun _ => 0) dims size mem

/-- Adds one entry in the first direction: new extent, hyperslab at the old extent, write. /repo/src/AMReX/PatchHierarchy.cpp:530-553 (data), 556-574 (times),
576-594 (cycles) -/
def h5Append (ds : H5Dataset K) (fill : K) (size : ℕ) (mem : ℕ → K) : Option (H5Dataset K) :=
  match ds.dims with
  | [] => none
  | d :: rest => (ds.setExtent fill ((d + 1) :: rest)).writeSlab (d :: rest.map fun _ => 0) (1 :: rest) size mem

/-- `CreateHdf5Database`, the first `steps` of its three datasets; `steps = 3` is the whole function, smaller numbers are a crash.
/repo/src/AMReX/PatchHierarchy.cpp:449-519. Attributes and field names are left out. -/
def h5GridCreate [Zero K] (o : GridOut K) (steps : ℕ) : Option (H5Grid K) := do
  let d ← h5Create 0 (1 :: o.ext) o.ext.prod o.mem
  let t ← h5Create 0 [1] 1 fun _ => o.time
  let c ← h5Create 0 [1] 1 fun _ => o.cycle
  return ⟨if 0 < steps then some d else none, if 1 < steps then some t else none, if 2 < steps then some c else none⟩

/-- `OpenHdf5Database`, the first `steps` of its three appends; it returns at the first dataset that cannot be opened.
/repo/src/AMReX/PatchHierarchy.cpp:521-595 -/
def h5GridAppend [Zero K] (f : H5Grid K) (o : GridOut K) (steps : ℕ) : Option (H5Grid K) :=
  if steps = 0 then some f
  else match f.data with
  | none => some f
  | some d => do
    let d' ← h5Append d 0 o.ext.prod o.mem
    if steps = 1 then return { f with data := some d' }
    else match f.times with
    | none => return { f with data := some d' }
    | some t => do
      let t' ← h5Append t 0 1 fun _ => o.time
      if steps = 2 then return { f with data := some d', times := some t' }
      else match f.cycles with
      | none => return { f with data := some d', times := some t' }
      | some c => do
        let c' ← h5Append c 0 1 fun _ => o.cycle
        return ⟨some d', some t', some c'⟩

/-- `WriteToHDF5` for a path that does not exist or is a regular file; each output is completed up to `steps`. /repo/src/AMReX/PatchHierarchy.cpp:598-607 -/
def h5GridWrite [Zero K] (f : Option (H5Grid K)) (o : GridOut K) (steps : ℕ) : Option (H5Grid K) :=
  match f with
  | none => h5GridCreate o steps
  | some g => h5GridAppend g o steps

/-- A history of outputs, each with the number of steps that were executed before it ended or crashed. `none` inside stands for a read behind the end of the fab. Serves the model of /repo/src/AMReX/PatchHierarchy.cpp:598-607. -/
def h5GridRun [Zero K] : Option (H5Grid K) → List (GridOut K × ℕ) → Option (Option (H5Grid K))
  | f, [] => some f
  | f, (o, s) :: rest =>
    match h5GridWrite f o s with
    | none => none
    | some g => h5GridRun (some g) rest

/-- The memory of a two dimensional `FArrayBox`: components are outermost, the first index is the fastest one. Serves the model of /repo/src/AMReX/PatchHierarchy.cpp:449-519. -/
def fabMem (nx ny : ℕ) (v : ℕ → ℕ → ℕ → K) (a : ℕ) : K := v (a / (nx * ny)) (a % (nx * ny) % nx) (a % (nx * ny) / nx)

/-- `numpy.reshape(array, [r, c])` of a two dimensional array of shape `[nx, ny]`, element `[j, i]`: both are read in row major order. Serves the model of /repo/extra/amrex/h5_io.py:29-35. -/
def npReshape (ny c : ℕ) (a : ℕ → ℕ → K) (j i : ℕ) : K := a ((j * c + i) / ny) ((j * c + i) % ny)

/-- `h5_load_spec_timepoint_variable`: the array of one variable, `none` without `/data`. /repo/extra/amrex/h5_io.py:29-35 -/
def h5LoadTimepoint (f : H5Grid K) (num var : ℕ) : Option (ℕ → ℕ → K) :=
  match f.data with
  | none => none
  | some ds => match ds.dims with
    | [_, _, nx, ny] => some (npReshape ny nx fun i j => ds.val [num, var, i, j])
    | _ => none

/-- `h5_load_several_timepoints_variable`: one time of one variable. The reshaped array is computed, but the array as read is returned.
/repo/extra/amrex/h5_io.py:76-90 -/
def h5LoadSeveral (f : H5Grid K) (num var : ℕ) : Option (ℕ → ℕ → K) :=
  match f.data with
  | none => none
  | some ds => match ds.dims with
    | [_, _, _, _] => some fun i j => ds.val [num, var, i, j]
    | _ => none

/-- The `/data` dataset of the probes: the time is the last index. /repo/src/AMReX/cutcell/output/LogProbes.cpp:75-86 -/
def probesCreate (fill : K) (nfields nprobes size : ℕ) (mem : ℕ → K) : Option (H5Dataset K) := h5Create fill [nfields, nprobes, 1] size mem

/-- `OpenHdf5Database` of the probes, `/data`. /repo/src/AMReX/cutcell/output/LogProbes.cpp:133-155 -/
def probesAppend (ds : H5Dataset K) (fill : K) (size : ℕ) (mem : ℕ → K) : Option (H5Dataset K) :=
  match ds.dims with
  | [a, b, t] => (ds.setExtent fill [a, b, t + 1]).writeSlab [0, 0, t] [a, b, 1] size mem
  | _ => none

/-- The `/data` dataset after a sequence of outputs. Serves the model of /repo/src/AMReX/cutcell/output/LogProbes.cpp:75-86. -/
def probesRun (fill : K) (nfields nprobes : ℕ) : List (ℕ × (ℕ → K)) → Option (Option (H5Dataset K))
  | [] => some none
  | (size, mem) :: rest =>
    match probesCreate fill nfields nprobes size mem with
    | none => none
    | some ds => (rest.foldl (fun (acc : Option (H5Dataset K)) o => acc.bind fun d => probesAppend d fill o.1 o.2) (some ds)).map some

end

/-- What a path refers to. Serves the model of /repo/src/AMReX/output/WriteHdf5.cpp:65-74. -/
inductive FsNode (C : Type) where
  /-- a regular file with its content -/
  | file (content : C)
  /-- a directory, a device, ... -/
  | other
deriving DecidableEq

variable {C : Type}

/-- A file system: the node of each path. Serves the model of /repo/src/AMReX/output/WriteHdf5.cpp:65-74. -/
abbrev Fs (C : Type) := String → Option (FsNode C)

/-- `fmt::format("{}.{}", path, i)`. Serves the model of /repo/src/AMReX/output/WriteHdf5.cpp:65-74. -/
def numbered (path : String) (i : ℕ) : String := path ++ "." ++ toString i

/-- The loop over `i = 1, 2, ...` below `limit` that searches a name that does not exist. /repo/src/AMReX/output/WriteHdf5.cpp:65-74 -/
def freeName (fs : Fs C) (path : String) (limit : ℕ) : Option String :=
  ((List.range' 1 (limit - 1)).find? fun i => (fs (numbered path i)).isNone).map (numbered path)

/-- The end of the constructors on rank zero: an old file is renamed, something that is not a file is avoided. The result is the file system and `path_to_file_`.
/repo/src/AMReX/output/WriteHdf5.cpp:60-91 (the same code: /repo/src/AMReX/cutcell/output/WriteHdf5.cpp:62-93,
/repo/src/AMReX/multi_block/MultiWriteHdf5.cpp:66-95 and 125-154, /repo/src/equations/perfect_gas_mix/PlenaControlOutput.cpp:240-267). `limit` is the largest `int`. -/
def prepareOutput (fs : Fs C) (path : String) (limit : ℕ) : Fs C × String :=
  match fs path with
  | some (.file c) =>
    match freeName fs path limit with
    | some new => (fun q => if q = path then none else if q = new then some (.file c) else fs q, path)
    | none => (fs, path)
  | some .other =>
    match freeName fs path limit with
    | some new => (fs, new)
    | none => (fs, path)
  | none => (fs, path)

/-- The block that is written. Serves the model of /repo/src/AMReX/multi_block/MultiWriteHdf5.cpp:42-44. -/
inductive OutBlock where
  /-- plenum with its index -/
  | plenum (k : ℤ)
  /-- tube with its index -/
  | tube (k : ℤ)
  /-- nothing -/
  | nothing
  /-- an access outside of the list of blocks -/
  | outOfRange
deriving DecidableEq

/-- `MultiWriteHdf5`: `type_` and `grid_id_` from the option `which_block`, and the choice at each output; sizes of spans are signed.
/repo/src/AMReX/multi_block/MultiWriteHdf5.cpp:42-44 and 163-180 (MultiWriteHdf52: 101-103 and 189-206) -/
def outBlock (whichBlock nPlena nTubes : ℤ) : OutBlock :=
  let type := max 0 (min whichBlock 1)
  let gridId := whichBlock - type
  if type = 0 ∧ gridId < nPlena then (if 0 ≤ gridId then .plenum gridId else .outOfRange)
  else if gridId < nTubes then (if 0 ≤ gridId then .tube gridId else .outOfRange)
  else .nothing

/-- Coordinate of probe `i` of tube `tube` in `LogProbesOutput`, the list of coordinates of all tubes is `xs`; every tube reads the coordinates from the start of
the list. /repo/src/AMReX/cutcell/output/LogProbes.cpp:245-257 -/
def tubeProbe {P : Type} (xs : List P) (nTubes tube i : ℕ) : Option P := if tube < nTubes ∧ i < xs.length / nTubes then xs[i]? else none

/-- `RenameFileIfExists`: the first free name is used. The loop runs until a name is free, `limit` bounds the search. /repo/src/AMReX/cutcell/output/LogProbes.cpp:198-218 -/
def renameIfExists (fs : Fs C) (path : String) (limit : ℕ) : Fs C :=
  match fs path with
  | none => fs
  | some node =>
    match ((List.range' 1 limit).find? fun i => (fs (path ++ ".old." ++ toString i)).isNone) with
    | some i => fun q => if q = path then none else if q = path ++ ".old." ++ toString i then some node else fs q
    | none => fs

/-- The file the probes of a tube are written to. /repo/src/AMReX/cutcell/output/LogProbes.cpp:278 -/
def tubeFile (path : String) (block : ℕ) : String := path ++ "_" ++ toString block ++ ".h5"

/-- The variables of `H5Handle` type and the identifiers that are open or closed in the library. Serves the model of /repo/include/fub/output/Hdf5Handle.hpp:25-48. -/
structure H5State where
  /-- `id_` of the live handles -/
  var : ℕ → Option ℤ
  /-- identifiers handed out by the library -/
  opened : List ℤ
  /-- identifiers passed to the deleter, in order -/
  closed : List ℤ

/-- What a program does with handles. Serves the model of /repo/include/fub/output/Hdf5Handle.hpp:25-48. -/
inductive H5Op where
  /-- `H5Handle v(H5...open(...))`; the library returns `id` -/
  | init (v : ℕ) (id : ℤ)
  /-- `H5Handle v(std::move(w))` -/
  | move (v w : ℕ)
  /-- `v = std::move(w)` -/
  | assign (v w : ℕ)
  /-- end of the lifetime of `v` -/
  | destroy (v : ℕ)

/-- The destructor of a handle with this identifier. /repo/include/fub/output/Hdf5Handle.hpp:39-43 -/
def h5Close (id : ℤ) (closed : List ℤ) : List ℤ := if 0 < id then closed ++ [id] else closed

/-- One operation; `none` if it is not possible: a variable that is not alive, or the initialisation of one that is alive. An identifier that the library returns is
not open or not positive. /repo/include/fub/output/Hdf5Handle.hpp:25-48 -/
def h5Step (s : H5State) : H5Op → Option H5State
  | .init v id => if s.var v = none ∧ (0 < id → s.opened.count id = s.closed.count id) then
      some ⟨fun q => if q = v then some id else s.var q, if 0 < id then s.opened ++ [id] else s.opened, s.closed⟩ else none
  | .move v w => match s.var w with
    | some id => if s.var v = none then some ⟨fun q => if q = v then some id else if q = w then some (-1) else s.var q, s.opened, s.closed⟩ else none
    | none => none
  | .assign v w => match s.var v, s.var w with
    | some a, some _ =>
      -- `H5Handle tmp(std::move(*this))`, then `id_ = std::exchange(other.id_, -1)`, then the destructor of `tmp`
      let afterTmp : ℕ → Option ℤ := fun q => if q = v then some (-1) else s.var q
      match afterTmp w with
      | some b =>
        let cleared : ℕ → Option ℤ := fun q => if q = w then some (-1) else afterTmp q
        some ⟨fun q => if q = v then some b else cleared q, s.opened, h5Close a s.closed⟩
      | none => none
    | _, _ => none
  | .destroy v => match s.var v with
    | some a => some ⟨fun q => if q = v then none else s.var q, s.opened, h5Close a s.closed⟩
    | none => none

/-- A sequence of operations. Serves the model of /repo/include/fub/output/Hdf5Handle.hpp:25-48. -/
def h5Run : H5State → List H5Op → Option H5State
  | s, [] => some s
  | s, op :: ops => match h5Step s op with
    | none => none
    | some s' => h5Run s' ops

end Fub
