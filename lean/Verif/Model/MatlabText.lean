import Mathlib.Algebra.Order.Field.Basic
import Mathlib.Data.List.Basic

/-!
The text output of a grid for Matlab, `WriteMatlabData(std::ostream&, ...)` of `/repo/src/AMReX/PatchHierarchy.cpp:609-689`: a line with the names of the columns and a line with numbers for each cell.

Text is a list of characters. How `fmt` prints a number is a parameter: a word, with a leading blank if the number is not negative (`{:< 24.15e}`); values are elements of an ordered field instead of `double`. Both functions, for one and for three dimensions, are one model with a parameter; the state of a cell is a record.
-/

namespace Fub

/-- `{:24s}` and the padding of `{:< 24.15e}`: blanks are appended up to 24 characters, longer text is not cut. /repo/src/AMReX/PatchHierarchy.cpp:613, 635 -/
def pad24 (s : List Char) : List Char := s ++ List.replicate (24 - s.length) ' '

/-- How numbers are printed. Used at /repo/src/AMReX/PatchHierarchy.cpp:635-641. -/
structure NumText (K : Type) where
  /-- the characters of the number without leading blank -/
  word : K → List Char
  /-- the blank in place of a sign -/
  lead : K → Bool

/-- `fmt::format("{:< 24.15e}", v)`. /repo/src/AMReX/PatchHierarchy.cpp:635-641 -/
def NumText.field {K : Type} (N : NumText K) (v : K) : List Char := pad24 (if N.lead v then ' ' :: N.word v else N.word v)

/-- The complete state of a cell as the view shows it. /repo/src/AMReX/PatchHierarchy.cpp:626-634, 671-683 -/
structure TextCell (K : Type) where
  density : K
  /-- one or three components -/
  momentum : List K
  speedOfSound : K
  temperature : K
  pressure : K
  gamma : K
  cp : K
  species : List K

/-- The names of the columns of one- and three-dimensional data. /repo/src/AMReX/PatchHierarchy.cpp:613-615, 650-654 -/
def textColumns (three : Bool) : List (List Char) :=
  if three then
    ["X".toList, "Y".toList, "Z".toList, "Density".toList, "VelocityX".toList, "VelocityY".toList, "VelocityZ".toList, "SpeedOfSound".toList, "Temperature".toList, "Pressure".toList,
     "Gamma".toList, "HeatCapacityAtConstantPressure".toList]
  else
    ["X".toList, "Density".toList, "VelocityX".toList, "SpeedOfSound".toList, "Temperature".toList, "Pressure".toList, "Gamma".toList, "HeatCapacityAtConstantPressure".toList]

/-- The names of the species in the header: one dimension: separated by one blank (lines 618-621); three dimensions: padded (lines 657-660). Without species `names[-1]` is read: undefined. /repo/src/AMReX/PatchHierarchy.cpp:616-621, 655-660 -/
def textSpecies (three : Bool) : List (List Char) → Option (List Char)
  | [] => none
  | [s] => some ((if three then pad24 s else s) ++ ['\n'])
  | s :: t :: rest => (textSpecies three (t :: rest)).map fun r => (if three then pad24 s else s ++ [' ']) ++ r

/-- The line of names. /repo/src/AMReX/PatchHierarchy.cpp:613-621, 650-660 -/
def textHeader (three : Bool) (names : List (List Char)) : Option (List Char) :=
  (textSpecies three names).map fun s => (textColumns three).flatMap pad24 ++ s

section
variable {K : Type} [Field K] [LinearOrder K]

/-- The numbers of a line. /repo/src/AMReX/PatchHierarchy.cpp:622-641, 661-686 -/
def textValues (x : List K) (c : TextCell K) : List K :=
  x ++ [c.density] ++ c.momentum.map (fun m => if 0 < c.density then m / c.density else 0) ++ [c.speedOfSound, c.temperature, c.pressure, c.gamma, c.cp] ++ c.species

/-- The line of a cell. /repo/src/AMReX/PatchHierarchy.cpp:635-643, 676-686 -/
def textLine (N : NumText K) (x : List K) (c : TextCell K) : List Char := (textValues x c).flatMap N.field ++ ['\n']

/-- All lines; `cells` lists the centres and states of the cells in the order of the loop. /repo/src/AMReX/PatchHierarchy.cpp:609-644, 646-689 -/
def writeMatlabText (three : Bool) (N : NumText K) (names : List (List Char)) (cells : List (List K × TextCell K)) : Option (List (List Char)) :=
  (textHeader three names).map fun h => h :: cells.map fun c => textLine N c.1 c.2

end

end Fub
