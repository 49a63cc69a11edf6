import Mathlib.Algebra.Order.Field.Basic

/-!
# Program options

Model of `/repo/src/ext/ProgramOptions.cpp` and
`/repo/include/fub/ext/ProgramOptions.hpp`. The Python interpreter is a parameter; of the
values of Python the model has the ones below. An exception is `none`.
-/

namespace Fub

/-- A Python value. The keys of a dictionary are strings, or something else (`none`). Serves the model of /repo/include/fub/ext/ProgramOptions.hpp:36. -/
inductive PyVal (K : Type*)
  | int (n : ℤ)
  | float (x : K)
  | str (s : List Char)
  | dict (entries : List (Option (List Char) × PyVal K))

/-- `ProgramOptions = std::map<std::string, pybind11::object>`, `/repo/include/fub/ext/ProgramOptions.hpp:36`. -/
abbrev OptionMap (K : Type*) := List Char → Option (PyVal K)

section
variable {K : Type*}

/-- `cast<int>()`: integers that fit into 32 bits. Serves the model of /repo/include/fub/ext/ProgramOptions.hpp:49-58. -/
def castInt : PyVal K → Option ℤ
  | .int n => if -2 ^ 31 ≤ n ∧ n < 2 ^ 31 then some n else none
  | _ => none

/-- `cast<double>()`: floating point numbers, and integers (without rounding, a simplification). Serves the model of /repo/include/fub/ext/ProgramOptions.hpp:49-58. -/
def castDouble [IntCast K] : PyVal K → Option K
  | .float x => some x
  | .int n => some (n : K)
  | _ => none

/-- `cast<std::string>()`. Serves the model of /repo/include/fub/ext/ProgramOptions.hpp:49-58. -/
def castString : PyVal K → Option (List Char)
  | .str s => some s
  | _ => none

/-- `cast<pybind11::dict>()`. Serves the model of /repo/src/ext/ProgramOptions.cpp:131-134. -/
def castDict : PyVal K → Option (List (Option (List Char) × PyVal K))
  | .dict e => some e
  | _ => none

/-- `GetOptionOr(map, name, value)`, `/repo/include/fub/ext/ProgramOptions.hpp:48-57`. -/
def getOptionOr {T : Type*} (cast : PyVal K → Option T) (map : OptionMap K) (name : List Char)
    (value : T) : Option T :=
  match map name with
  | some v => cast v
  | none => some value

/-- `GetOptionOr` for a direction, `/repo/src/ext/ProgramOptions.cpp:35-40`: any integer is taken for a direction. -/
def getOptionDirection (map : OptionMap K) (name : List Char) (value : ℤ) : Option ℤ :=
  getOptionOr castInt map name value

/-- `GetOptionOr` for a duration, `/repo/src/ext/ProgramOptions.cpp:42-47`. -/
def getOptionDuration [IntCast K] (map : OptionMap K) (name : List Char) (value : K) : Option K :=
  getOptionOr castDouble map name value

/-- `options.emplace(name, v)`: an entry that is there already is kept. Serves the model of /repo/src/ext/ProgramOptions.cpp:75-82. -/
def emplaceOption (map : OptionMap K) (name : List Char) (v : PyVal K) : OptionMap K :=
  fun k => if k = name then (match map name with
    | some w => some w
    | none => some v) else map k

/-- `ToMap(dict)`, `/repo/src/ext/ProgramOptions.cpp:75-82`: a key that is not a string throws. -/
def toMap : List (Option (List Char) × PyVal K) → OptionMap K → Option (OptionMap K)
  | [], acc => some acc
  | (none, _) :: _, _ => none
  | (some k, v) :: rest, acc => toMap rest (emplaceOption acc k v)

/-- `GetOptions(options, name)`, `/repo/src/ext/ProgramOptions.cpp:131-134`. -/
def getOptions (options : OptionMap K) (name : List Char) : Option (OptionMap K) :=
  (getOptionOr castDict options name []).bind (fun d => toMap d (fun _ => none))

/-- The global variables of the embedded interpreter. They live as long as the process. Serves the model of /repo/src/ext/ProgramOptions.cpp:66-71. -/
abbrev PyGlobals (K : Type*) := List (List Char × PyVal K)

/-- The value of a global variable. Serves the model of /repo/src/ext/ProgramOptions.cpp:66-71. -/
def PyGlobals.find (g : PyGlobals K) (name : List Char) : Option (PyVal K) :=
  (List.find? (fun e => decide (e.1 = name)) g).map Prod.snd

/-- The options made of the globals: names that begin with two underscores are left out,
`/repo/src/ext/ProgramOptions.cpp:66-71`. -/
def optionsOfGlobals : PyGlobals K → OptionMap K → OptionMap K
  | [], acc => acc
  | (name, v) :: rest, acc =>
    optionsOfGlobals rest (if name.take 2 ≠ ['_', '_'] then emplaceOption acc name v else acc)

/-- `ParsePythonScript`, `/repo/src/ext/ProgramOptions.cpp:49-73`: `exec` is the execution of the script on the globals, `none` if
it throws. The arguments are put into the globals first if there are any (`/repo/src/ext/ProgramOptions.cpp:59-61`). -/
def parsePythonScript (isFile : Bool) (exec : PyGlobals K → Option (PyGlobals K))
    (setArgs : PyGlobals K → PyGlobals K) (hasArgs : Bool) (globals : PyGlobals K) :
    Option (OptionMap K × PyGlobals K) :=
  if isFile then
    (exec (if hasArgs then setArgs globals else globals)).map
      (fun g => (optionsOfGlobals g (fun _ => none), g))
  else none

/-- `ParseCommandLine`, `/repo/src/ext/ProgramOptions.cpp:84-129`: `parsed` is `none` if the command line cannot be parsed, and
otherwise says whether there is a configuration file and whether help is wanted; `script` is the result
of the script. -/
def parseCommandLine (parsed : Option (Bool × Bool)) (script : Option (OptionMap K)) :
    Option (OptionMap K) :=
  match parsed with
  | none => none
  | some (hasConfig, help) =>
    match (if hasConfig then script else some (fun _ => none)) with
    | none => none
    | some options => if help then none else some options

end

end Fub
