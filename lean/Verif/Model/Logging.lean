import Mathlib.Data.List.Sort

/-!
# Logging

Model of `/repo/src/ext/Log.cpp`: the format of a log record, the channel blacklist, the
choice of the log file and the ranks that log. Strings are lists of characters. Boost.Log and
Boost.Filesystem are not modelled beyond the calls named below.
-/

namespace Fub

/-! ## `std::lower_bound` -/

/-- `std::lower_bound` over the positions `first, …, first + len - 1`, where `below i` says that the
element at position `i` is smaller than the value: the bisection of the standard library
(`std::__lower_bound`), used at `/repo/src/ext/Log.cpp:158` and in `/repo/src/AMReX/cutcell/initial_data/InterpolateFrom1d.cpp:88-89`. -/
def lowerBoundFrom (below : ℕ → Bool) (first len : ℕ) : ℕ :=
  if h : len = 0 then first
  else
    if below (first + len / 2) then
      lowerBoundFrom below (first + len / 2 + 1) (len - len / 2 - 1)
    else
      lowerBoundFrom below first (len / 2)
  termination_by len
  decreasing_by all_goals omega

/-- `std::lower_bound(xs.begin(), xs.end(), v) - xs.begin()`. Serves the model of /repo/src/ext/Log.cpp:146-162. -/
def lowerBound (below : ℕ → Bool) (n : ℕ) : ℕ := lowerBoundFrom below 0 n

/-! ## The format of a record -/

/-- The attributes of a log record that `FormatLogs_` reads, `/repo/src/ext/Log.cpp:58-74`: the time stamp is always
there, the others need not be. Numbers are already rendered (`fmt::format`, `/repo/src/ext/Log.cpp:69`, `73`). -/
structure LogRecord where
  timestamp : List Char
  channel : Option (List Char)
  severity : Option (List Char)
  time : Option (List Char)
  level : Option (List Char)
  message : List Char

/-- One bracketed attribute of the prefix, `[name]` followed by a blank; nothing if the record has no
such attribute, `/repo/src/ext/Log.cpp:59-74`. -/
def logAttr (before after : List Char) : Option (List Char) → List Char
  | none => []
  | some a => '[' :: before ++ a ++ after ++ [']', ' ']

/-- The prefix of a record, `/repo/src/ext/Log.cpp:57-74`. -/
def logPrefix (r : LogRecord) : List Char :=
  r.timestamp ++ [' ', '-', '-', ' '] ++ logAttr [] [] r.channel ++ logAttr [] [] r.severity ++
    logAttr ['T', ' ', '=', ' '] ['s'] r.time ++
    logAttr ['l', 'e', 'v', 'e', 'l', ' ', '=', ' '] [] r.level

/-- `boost::replace_all(message, "\n", replace_by)`, `/repo/src/ext/Log.cpp:79`: every occurrence is replaced, the
replacement text is not searched again. -/
def replaceNewlines (by_ : List Char) (message : List Char) : List Char :=
  message.flatMap (fun c => if c = '\n' then by_ else [c])

/-- `FormatLogs_`, `/repo/src/ext/Log.cpp:53-82`: what is written to the stream. -/
def formatLogs (r : LogRecord) : List Char :=
  let pre := logPrefix r
  let replaceBy := '\n' :: pre
  if r.message.length > 1 then pre ++ replaceNewlines replaceBy r.message else []

/-! ## The channel filter -/

/-- The filter of the file sink, `/repo/src/ext/Log.cpp:146-162`: `blacklist` is the configured list, sorted at
`/repo/src/ext/Log.cpp:147` (`std::sort`, here `List.mergeSort`); `channel` is `none` if the record has no channel
attribute or one of another type (`/repo/src/ext/Log.cpp:149-155`). -/
def channelFilter {S : Type*} [LinearOrder S] (configured : List S) (channel : Option S) : Bool :=
  let blacklist := configured.mergeSort (fun a b => decide (a ≤ b))
  match channel with
  | none => true
  | some c =>
    let entry := lowerBound (fun i => match blacklist[i]? with
      | some b => decide (b < c)
      | none => false) blacklist.length
    match blacklist[entry]? with
    | none => true
    | some b => decide (b ≠ c)

/-! ## The log file -/

/-- What a path of the file system points to: a regular file with its content, or something else
(a directory, say). Serves the model of /repo/src/ext/Log.cpp:108-118. -/
inductive FsEntry (C : Type*)
  | regular (content : C)
  | other
  deriving DecidableEq

/-- A file system: what each path points to. Serves the model of /repo/src/ext/Log.cpp:108-118. -/
abbrev FileSystem (C : Type*) := List Char → Option (FsEntry C)

/-- `fmt::format("{}.{}", log_filename, i)`, `/repo/src/ext/Log.cpp:109`, `122`. -/
def numberedName (name : List Char) (i : ℕ) : List Char := name ++ '.' :: (Nat.toDigits 10 i)

/-- The search for an unused name, `/repo/src/ext/Log.cpp:108-118` and `121-132`: the first `i` in
`1, …, INT_MAX - 1` whose name does not exist. `fuel` counts the remaining values of `i`. -/
def firstFree {C : Type*} (fs : FileSystem C) (name : List Char) : ℕ → ℕ → Option ℕ
  | 0, _ => none
  | fuel + 1, i =>
    if (fs (numberedName name i)).isNone then some i else firstFree fs name fuel (i + 1)

/-- The number of values the loop tries, `/repo/src/ext/Log.cpp:108`. -/
def freeTries : ℕ := 2 ^ 31 - 2

/-- `boost::filesystem::rename(from, to)`, `/repo/src/ext/Log.cpp:114`. -/
def FileSystem.rename {C : Type*} (fs : FileSystem C) (src dst : List Char) : FileSystem C :=
  fun p => if p = dst then fs src else if p = src then none else fs p

/-- Opening a `std::ofstream` truncates a regular file or creates an empty one; on anything else it
fails and leaves the file system as it is, `/repo/src/ext/Log.cpp:143-144`. -/
def FileSystem.openTruncate {C : Type*} (empty : C) (fs : FileSystem C) (p : List Char) :
    FileSystem C :=
  match fs p with
  | some .other => fs
  | _ => fun q => if q = p then some (.regular empty) else fs q

/-- The preparation of the log file by rank 0, `/repo/src/ext/Log.cpp:93-134`: the file system afterwards and the name
to log to. The creation of the directory (`/repo/src/ext/Log.cpp:95-100`) is not modelled. -/
def prepareLogFile {C : Type*} (rank : ℤ) (fs : FileSystem C) (name : List Char) :
    FileSystem C × List Char :=
  if rank = 0 then
    match fs name with
    | some (.regular _) =>
      match firstFree fs name freeTries 1 with
      | some i => (fs.rename name (numberedName name i), name)
      | none => (fs, name)
    | some .other =>
      match firstFree fs name freeTries 1 with
      | some i => (fs, numberedName name i)
      | none => (fs, name)
    | none => (fs, name)
  else (fs, name)

/-- What a rank has after `InitializeLogging`, `/repo/src/ext/Log.cpp:136-172`: the file it logs to (`none` if the
filter of the whole core rejects every record), and the file system. -/
def initializeLogging {C : Type*} (empty : C) (ranks : List ℤ) (rank : ℤ) (fs : FileSystem C)
    (name : List Char) : Option (List Char) × FileSystem C :=
  let p := prepareLogFile rank fs name
  if rank ∈ ranks then (some p.2, p.1.openTruncate empty p.2) else (none, p.1)

/-- The severities of Boost.Log, in order. Serves the model of /repo/src/ext/Log.cpp:168-169. -/
inductive LogSeverity
  | trace | debug | info | warning | error | fatal
  deriving DecidableEq

/-- Their numbers. Serves the model of /repo/src/ext/Log.cpp:168-169. -/
def LogSeverity.rank : LogSeverity → ℕ
  | trace => 0 | debug => 1 | info => 2 | warning => 3 | error => 4 | fatal => 5

/-- The filter of the console, `/repo/src/ext/Log.cpp:168-169`: a record without a severity is not shown. -/
def consoleFilter : Option LogSeverity → Bool
  | none => false
  | some s => decide (LogSeverity.info.rank ≤ s.rank)

end Fub
