import Mathlib.Data.List.Basic
import Mathlib.Algebra.Order.Field.Basic

/-!
# Model of the storage for debug data and of its output

Source: `/repo/src/AMReX/output/DebugOutput.cpp`, `/repo/include/fub/AMReX/output/DebugOutput.hpp`.

Simplifications: a box array, the values of one component on one level and a geometry are values of abstract types; names are lists of characters. `amrex::MultiFab::Copy` copies components. Files are
not written: the result of `FlushData` is the list of what is passed to AMReX. An empty hierarchy, whose first level the code accesses, has a location here, too.
-/

namespace Fub

/-- A name of a component or of a directory. Serves the model of /repo/src/AMReX/output/DebugOutput.cpp:331,351,483,485. -/
abbrev DbgName := List Char

/-- `fmt::format("{}_{}", name, n)` with the separator `sep`. /repo/src/AMReX/output/DebugOutput.cpp:331,351,483,485 -/
def DbgName.number (sep : Char) (a : DbgName) (n : Nat) : DbgName := a ++ sep :: Nat.toDigits 10 n

/-! ### Unique names of components -/

/-- The loop that appends the next numbers to all names that are equal to the candidate. `std::find` starts again at the same position, but the names it has passed differ from the candidate by then.
/repo/src/AMReX/output/DebugOutput.cpp:330-334,350-354 -/
def dbgRenameFrom (cand : DbgName) : Nat → List DbgName → List DbgName × Nat
  | c, [] => ([], c)
  | c, a :: as =>
    if a = cand then
      let r := dbgRenameFrom cand (c + 1) as
      (cand.number '_' c :: r.1, r.2)
    else
      let r := dbgRenameFrom cand c as
      (a :: r.1, r.2)

/-- The search in the names of one hierarchy: the counter starts at one with the first match. /repo/src/AMReX/output/DebugOutput.cpp:325-335,341-355 -/
def dbgRename (cand : DbgName) (c : Nat) (as : List DbgName) : List DbgName × Nat :=
  if cand ∈ as then dbgRenameFrom cand (if c = 0 then 1 else c) as else (as, c)

/-- The search in the other hierarchies. /repo/src/AMReX/output/DebugOutput.cpp:337-356 -/
def dbgRenameLater (cand : DbgName) : Nat → List (List DbgName) → List (List DbgName) × Nat
  | c, [] => ([], c)
  | c, h :: hs =>
    let r := dbgRename cand c h
    let r' := dbgRenameLater cand r.2 hs
    (r.1 :: r'.1, r'.2)

/-- The loop over the `n` names of one hierarchy, with the later hierarchies. The name itself gets `_0` if another one was found. /repo/src/AMReX/output/DebugOutput.cpp:319-357 -/
def dbgUniqueHier : Nat → List DbgName → List (List DbgName) → List DbgName × List (List DbgName)
  | 0, as, later => (as, later)
  | _ + 1, [], later => ([], later)
  | n + 1, cand :: rest, later =>
    let r1 := dbgRename cand 0 rest
    let r2 := dbgRenameLater cand r1.2 later
    let r := dbgUniqueHier n r1.1 r2.1
    ((if r2.2 = 0 then cand else cand.number '_' 0) :: r.1, r.2)

/-- The loop over `m` hierarchies. Serves the model of /repo/src/AMReX/output/DebugOutput.cpp:314-360. -/
def dbgUniqueLoop : Nat → List (List DbgName) → List (List DbgName)
  | 0, hs => hs
  | _ + 1, [] => []
  | m + 1, h :: hs =>
    let r := dbgUniqueHier h.length h hs
    r.1 :: dbgUniqueLoop m r.2

/-- `DebugSnapshot::MakeUniqueComponentNames`. /repo/src/AMReX/output/DebugOutput.cpp:314-360 -/
def dbgMakeUnique (hs : List (List DbgName)) : List (List DbgName) := dbgUniqueLoop hs.length hs

/-! ### Directories of snapshots -/

/-- One pass over the snapshots: every directory that equals the current candidate gets the next number, and the candidate becomes the one after. The state is the candidate, the counter and the flag.
/repo/src/AMReX/output/DebugOutput.cpp:479-487 -/
def dbgSnapPass (base : DbgName) : List DbgName → DbgName × Nat × Bool → List DbgName × (DbgName × Nat × Bool)
  | [], st => ([], st)
  | d :: ds, (dir, c, m) =>
    if d = dir then
      let r := dbgSnapPass base ds (base.number '-' (c + 1), c + 1, true)
      (base.number '-' c :: r.1, r.2)
    else
      let r := dbgSnapPass base ds (dir, c, m)
      (d :: r.1, r.2)

/-- The passes until nothing is modified; `none` when the fuel does not suffice. /repo/src/AMReX/output/DebugOutput.cpp:478-488 -/
def dbgSnapLoop (base : DbgName) : Nat → List DbgName → DbgName → Nat → Option (List DbgName × DbgName)
  | 0, _, _, _ => none
  | fuel + 1, ds, dir, c =>
    let r := dbgSnapPass base ds (dir, c, false)
    if r.2.2.2 then dbgSnapLoop base fuel r.1 r.2.1 r.2.2.1 else some (r.1, r.2.1)

/-- `DebugStorage::AddSnapshot(base)` of an enabled storage: the directories of all snapshots afterwards. The new snapshot has an empty directory while the loop runs.
/repo/src/AMReX/output/DebugOutput.cpp:471-494 -/
def dbgAddSnapshot (ds : List DbgName) (base : DbgName) : Option (List DbgName) :=
  (dbgSnapLoop base (ds.length + 4) (ds ++ [[]]) base 0).map (fun r => r.1.dropLast ++ [r.2])

/-! ### Saved data -/

/-- Where the data lives; faces of all directions are one location here. Serves the model of /repo/include/fub/AMReX/output/DebugOutput.hpp:115-122. -/
inductive DbgLoc where
  | cell
  | node
  | face
deriving DecidableEq

/-- Boxes and components of a level. Serves the model of /repo/include/fub/AMReX/output/DebugOutput.hpp:115-122. -/
structure DbgLevel (B D : Type) where
  boxes : B
  comps : List D

/-- What one call of `SaveData` stores. /repo/include/fub/AMReX/output/DebugOutput.hpp:115-122 -/
structure DbgField (B D G : Type) where
  loc : DbgLoc
  names : List DbgName
  levels : List (DbgLevel B D)
  geoms : List G

section
variable {B D G : Type}

/-- `DebugSnapshot::SaveData`: the components `first, …, first + names.size() - 1` of all levels. `none` is an assertion of AMReX when the source has fewer components.
/repo/src/AMReX/output/DebugOutput.cpp:233-312 -/
def dbgSave (saved : List (DbgField B D G)) (loc : DbgLoc) (src : List (DbgLevel B D)) (names : List DbgName) (geoms : List G) (first : Nat) : Option (List (DbgField B D G)) :=
  if ∀ l ∈ src, first + names.length ≤ l.comps.length then
    some (saved ++ [⟨loc, names, src.map (fun l => ⟨l.boxes, (l.comps.drop first).take names.length⟩), geoms⟩])
  else none

/-- `DebugSnapshotProxy::SaveData`: an empty proxy, as a disabled storage returns it, does nothing. /repo/src/AMReX/output/DebugOutput.cpp:414-469 -/
def dbgProxySave (snapshot : Option (List (DbgField B D G))) (loc : DbgLoc) (src : List (DbgLevel B D)) (names : List DbgName) (geoms : List G) (first : Nat) :
    Option (Option (List (DbgField B D G))) :=
  match snapshot with
  | none => some none
  | some saved => (dbgSave saved loc src names geoms first).map some

/-- `Partitions_`: `std::stable_partition` moves the entries that equal the first one to the front, again and again. /repo/src/AMReX/output/DebugOutput.cpp:45-72 -/
def dbgPartitions {A P : Type} [DecidableEq P] (key : A → P) : List A → List (List A)
  | [] => []
  | i :: is => (i :: is.filter (fun j => key i = key j)) :: dbgPartitions key (is.filter (fun j => ¬ key i = key j))
termination_by l => l.length
decreasing_by
  simp only [List.length_cons, List.length_unattach]
  exact Nat.lt_succ_of_le ((List.length_filter_le _ _).trans (by simp))

/-- Box arrays of all levels. /repo/src/AMReX/output/DebugOutput.cpp:96-101 -/
def DbgField.boxes (f : DbgField B D G) : List B := f.levels.map (·.boxes)

/-- Components on a level. /repo/src/AMReX/output/DebugOutput.cpp:396-398 -/
def DbgField.compsAt (g : DbgField B D G) (l : Nat) : List D :=
  match g.levels[l]? with
  | some w => w.comps
  | none => []

/-- `DebugSnapshot::GatherFields(location)` for one partition: the levels have the boxes of the first member and the components of all members one after the other.
/repo/src/AMReX/output/DebugOutput.cpp:379-404 -/
def dbgJoin (loc : DbgLoc) : List (DbgField B D G) → DbgField B D G
  | [] => ⟨loc, [], [], []⟩
  | f :: fs =>
    { loc := loc
      names := (f :: fs).flatMap (·.names)
      levels := f.levels.mapIdx (fun l v => ⟨v.boxes, (f :: fs).flatMap (fun g => g.compsAt l)⟩)
      geoms := f.geoms }

/-- `DebugSnapshot::GatherFields(location)`. /repo/src/AMReX/output/DebugOutput.cpp:362-406 -/
def dbgGather [DecidableEq B] (saved : List (DbgField B D G)) (loc : DbgLoc) : List (DbgField B D G) :=
  (dbgPartitions DbgField.boxes (saved.filter (fun f => f.loc = loc))).map (dbgJoin loc)

/-- The cell averages that `FlushData` adds for a field at nodes or faces. `avg` averages a component. /repo/src/AMReX/output/DebugOutput.cpp:523-570 -/
def dbgAverage (enclosed : B → B) (avg : DbgLoc → D → D) (f : DbgField B D G) : DbgField B D G :=
  { loc := .cell
    names := f.names.map (fun a => a ++ (if f.loc = .node then "_nd2cellavg".toList else "_fc2cellavg".toList))
    levels := f.levels.map (fun l => ⟨enclosed l.boxes, l.comps.map (avg f.loc)⟩)
    geoms := f.geoms }

/-- The saved fields with their new names. /repo/src/AMReX/output/DebugOutput.cpp:507-511 -/
def dbgSetNames (saved : List (DbgField B D G)) (names : List (List DbgName)) : List (DbgField B D G) :=
  List.zipWith (fun f n => { f with names := n }) saved names

/-- A plot file: joined cell data, and the fields at nodes and faces that are written next to it as they are. Serves the model of /repo/src/AMReX/output/DebugOutput.cpp:507-662. -/
structure DbgPlot (B D G : Type) where
  cells : DbgField B D G
  raw : List (DbgField B D G)

/-- The part of `FlushData` for one snapshot. /repo/src/AMReX/output/DebugOutput.cpp:507-662 -/
def dbgFlush [DecidableEq B] (enclosed : B → B) (avg : DbgLoc → D → D) (saved : List (DbgField B D G)) : List (DbgPlot B D G) :=
  let named := dbgSetNames saved (dbgMakeUnique (saved.map (·.names)))
  let outer := named.filter (fun f => f.loc ≠ .cell)
  let all := named ++ outer.map (dbgAverage enclosed avg)
  (dbgGather all .cell).map (fun p => ⟨p, outer.filter (fun f => p.boxes = f.boxes.map enclosed)⟩)

end

/-- `AverageFaceToCell` in the direction of the faces. /repo/src/AMReX/output/DebugOutput.cpp:167-196 -/
def dbgFaceAverage {K : Type} [Field K] (faces : Int → K) (i : Int) : K := 1 / 2 * faces i + 1 / 2 * faces (i + 1)

/-- The cycle number of the files: the given one, or the next one if it is negative. /repo/src/AMReX/output/DebugOutput.cpp:500-504 -/
def dbgCycle (last cycle : Int) : Int := if cycle < 0 then last + 1 else cycle

end Fub
