import Verif.Model.Checkpoint

/-!
# What a user expects of checkpoints

`IsDouble` – the numbers of the format binary64. `Printed n` – the decimal numbers that `printf` with `n` significant digits may print. `NearestDouble` – what a correct reader makes of
a decimal number. `Partial` – a checkpoint directory that an interrupted writer may leave behind. `AtRest` – an integrator context between two time steps. `Seen` – what an observer of
a run sees.
-/

namespace Fub

/-- Finite numbers of the format binary64. -/
def IsDouble (x : ℚ) : Prop := ∃ m e : ℤ, |m| < 2 ^ 53 ∧ -1074 ≤ e ∧ e ≤ 971 ∧ x = (m : ℚ) * 2 ^ e

/-- `q` is `x` rounded to `n` significant decimal digits, with any rule for ties. -/
def Printed (n : ℕ) (x q : ℚ) : Prop :=
  if x = 0 then q = 0
  else ∃ m : ℤ, q = (m : ℚ) * 10 ^ (Int.log 10 |x| + 1 - n) ∧ |x - q| ≤ 10 ^ (Int.log 10 |x| + 1 - n) / 2

/-- `y` is a number of the format binary64 that is nearest to `q`, with any rule for ties. -/
def NearestDouble (q y : ℚ) : Prop := IsDouble y ∧ ∀ z, IsDouble z → |q - y| ≤ |q - z|

/-- `u` is what is left of the text `ts` when the writer was stopped before its end: a proper prefix, whose last token may be cut off. A cut box array cannot be read, of a cut integer that is not negative there is
another such integer left, or nothing readable. -/
def TornText {K B : Type} (ts u : List (CkTok K B)) : Prop :=
  ∃ k, k < ts.length ∧ (u = ts.take k ∨ ∃ t, u = ts.take k ++ [t] ∧
    match ts[k]? with
    | some (.word _) => t = .torn ∨ ∃ s, t = .word s
    | some (.int z) => t = .torn ∨ ∃ z', t = .int z' ∧ (0 ≤ z → 0 ≤ z')
    | some (.num _) => t = .torn ∨ (∃ q, t = .num q) ∨ (∃ z, t = .int z)
    | _ => t = .torn)

/-- A directory that may be found when the writer of the checkpoint of `h` was interrupted at any point, for any order in which its processes complete the files. -/
structure PartialDir {K B D N : Type} (fmt : K → K) (title : String) (h : List (CkLevel K B D N)) (s : CkDir K B D) : Prop where
  header : s.header = none ∨ (∃ u, TornText (ckHeader fmt title h) u ∧ s.header = some u) ∨ s.header = some (ckHeader fmt title h)
  data : ∀ l, s.data l = none ∨ s.data l = some .torn ∨ ∃ v, h[l]? = some v ∧ s.data l = some (.full v.data)

/-- Interrupted execution of file operations: each listed operation is either completed or left with a torn file. -/
inductive CkExec {K B D : Type} : List (CkOp K B D) → CkDir K B D → CkDir K B D → Prop
  | nil (ops s) : CkExec ops s s
  | done (ops op s s') : op ∈ ops → CkExec ops (op.done s) s' → CkExec ops s s'
  | tornHeader (ops ts u s s') : CkOp.header ts ∈ ops → TornText ts u → CkExec ops { s with header := some u } s' → CkExec ops s s'
  | tornLevel (ops l d s s') : CkOp.level l d ∈ ops → CkExec ops { s with data := Function.update s.data l (some .torn) } s' → CkExec ops s s'

/-- The integrator context between two time steps: clocks, cycles and data of every level are those of the hierarchy, and either the coarsest level was advanced since the last regrid or no level was. -/
structure Ctx.AtRest {K G Opt Meth Cb : Type} (c : Ctx K G Opt Meth Cb) : Prop where
  levels : c.data.length = c.hier.length
  same : ∀ (l : ℕ) (d : LevelClock K G) (h : HierLevel K G), c.data[l]? = some d → c.hier[l]? = some h → d.time = h.time ∧ d.cycles = h.cycles ∧ d.scratch = h.data
  regrid : (∀ d : LevelClock K G, c.data[0]? = some d → d.regridTime ≠ d.time) ∨ ∀ (l : ℕ) (d : LevelClock K G), c.data[l]? = some d → d.regridTime = d.time

/-- Equal contexts up to the time of the last regrid. -/
def Ctx.SameButRegrid {K G Opt Meth Cb : Type} (c c' : Ctx K G Opt Meth Cb) : Prop :=
  { c with data := [] } = { c' with data := [] } ∧
    c.data.map (fun d => (d.time, d.cycles, d.scratch)) = c'.data.map (fun d => (d.time, d.cycles, d.scratch))

/-- What an observer of a run sees of an event: time points, step sizes and errors of all attempts, and the hierarchies that are put out. -/
def Event.seen {K G Opt Meth Cb : Type} : Event K (Ctx K G Opt Meth Cb) → (K × K × K × Option K) ⊕ (List (HierLevel K G) × K)
  | .attempt _ t est dt e => .inl (t, est, dt, e)
  | .output s t => .inr (s.hier, t)

/-- What an observer sees of a run: where it is, its time, its hierarchy and its past. -/
def Config.seen {K G Opt Meth Cb : Type} (c : Config K (Ctx K G Opt Meth Cb)) :
    Pc × K × Option K × List (HierLevel K G) × List ((K × K × K × Option K) ⊕ (List (HierLevel K G) × K)) :=
  (c.pc, c.t, c.failureDt, c.solver.hier, c.trace.map Event.seen)

end Fub
