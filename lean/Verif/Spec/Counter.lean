import Verif.Model.Counter

/-!
# Specification of counters and timers
-/

namespace Fub

/-- The samples recorded under a name since its last reset, oldest first. -/
def recorded (name : String) : List RegOp → List Int
  | [] => []
  | h => go [] h
where
  go (acc : List Int) : List RegOp → List Int
    | [] => acc
    | .get _ :: h => go acc h
    | .add n v :: h => if n = name then go (acc ++ [v]) h else go acc h
    | .reset n :: h => if n = name then go [] h else go acc h

/-- The name occurs in the history. -/
def mentioned (name : String) (h : List RegOp) : Prop :=
  ∃ op ∈ h, op = .get name ∨ (∃ v, op = .add name v) ∨ op = .reset name

/-- The measurements started in a history: counter and start time. -/
def started : List TimerOp → List (String × Int)
  | [] => []
  | .start _ c now :: h => (c, now) :: started h
  | _ :: h => started h

/-- What a sample measures. -/
def Sample.key (m : Sample) : String × Int := (m.counter, m.start)

/-- The object is not measuring. -/
def TimerState.idle (s : TimerState) (id : Nat) : Prop := ∀ o, s.objs id = some o → o.counter = none

/-- The measurement that the object `id` is going to submit, if any. -/
def TimerState.running (s : TimerState) (id : Nat) : List (String × Int) :=
  match s.objs id with
  | some ⟨some c, t⟩ => [(c, t)]
  | _ => []

/-- Objects named in a history. -/
def objectsOf : List TimerOp → List Nat
  | [] => []
  | .default i :: h => i :: objectsOf h
  | .start i _ _ :: h => i :: objectsOf h
  | .moveCtor i j :: h => i :: j :: objectsOf h
  | .moveAssign i j :: h => i :: j :: objectsOf h
  | .destroy i _ :: h => i :: objectsOf h

/-- No running timer is overwritten: every move assignment has an idle target or is a self assignment. -/
def NoOverwrite : TimerState → List TimerOp → Prop
  | _, [] => True
  | s, op :: h => (∀ d e, op = .moveAssign d e → s.idle d ∨ d = e) ∧
      ∀ s', s.step op = some s' → NoOverwrite s' h

end Fub
