import Verif.Model.Burke

/-!
# Specification of a chemical mechanism

Written from the chemistry, not from the code: the atoms of each species are those of its name and
the 27 reactions are chemical equations. The law of mass action turns such a list of equations into
production rates.
-/

namespace Fub

/-- The chemical elements of the mechanism. -/
inductive Element
  | H | O | N | Ar | He
  deriving DecidableEq

/-- The complete list of elements. -/
instance : Fintype Element where
  elems := {.H, .O, .N, .Ar, .He}
  complete := by intro x; cases x <;> simp

/-- Atoms of each element in one molecule, as its formula says. -/
def atoms : BSp → Element → ℕ
  | .N2, .N => 2
  | .AR, .Ar => 1
  | .H, .H => 1
  | .O2, .O => 2
  | .O, .O => 1
  | .OH, .O => 1
  | .OH, .H => 1
  | .H2, .H => 2
  | .H2O, .H => 2
  | .H2O, .O => 1
  | .HE, .He => 1
  | .HO2, .H => 1
  | .HO2, .O => 2
  | .H2O2, .H => 2
  | .H2O2, .O => 2
  | _, _ => 0

/-- Atomic weights in kg/kmol (the rounded ones of the FlameMaster tables). -/
def atomicWeight : Element → ℚ
  | .H => 1.008
  | .O => 16
  | .N => 14.01
  | .Ar => 39.948
  | .He => 4

/-- A reversible elementary reaction `left ⇌ right`, optionally with a third body `M` on both
sides. -/
structure ReactionEq where
  left : List BSp
  right : List BSp
  third : Option BTb := none

/-- The chemical equations of the mechanism of Burke et al. (2012), each with the labels of its
forward and backward rate. -/
def burkeMechanism : List (BRx × BRx × ReactionEq) :=
  [(.r1f, .r1b, ⟨[.H, .O2], [.OH, .O], none⟩),
   (.r2f, .r2b, ⟨[.O, .H2], [.OH, .H], none⟩),
   (.r3f, .r3b, ⟨[.O, .H2], [.OH, .H], none⟩),
   (.r4f, .r4b, ⟨[.H2, .OH], [.H, .H2O], none⟩),
   (.r5f, .r5b, ⟨[.OH, .OH], [.H2O, .O], none⟩),
   (.r6f, .r6b, ⟨[.H2], [.H, .H], some .M1⟩),
   (.r7f, .r7b, ⟨[.H2, .AR], [.AR, .H, .H], none⟩),
   (.r8f, .r8b, ⟨[.H2, .HE], [.HE, .H, .H], none⟩),
   (.r9f, .r9b, ⟨[.O, .O], [.O2], some .M2⟩),
   (.r10f, .r10b, ⟨[.O, .O, .AR], [.AR, .O2], none⟩),
   (.r11f, .r11b, ⟨[.O, .O, .HE], [.HE, .O2], none⟩),
   (.r12f, .r12b, ⟨[.O, .H], [.OH], some .M3⟩),
   (.r13f, .r13b, ⟨[.H2O], [.OH, .H], some .M4⟩),
   (.r14f, .r14b, ⟨[.H2O, .H2O], [.H2O, .OH, .H], none⟩),
   (.r15f, .r15b, ⟨[.H, .O2], [.HO2], none⟩),
   (.r16f, .r16b, ⟨[.HO2, .H], [.O2, .H2], none⟩),
   (.r17f, .r17b, ⟨[.HO2, .H], [.OH, .OH], none⟩),
   (.r18f, .r18b, ⟨[.HO2, .O], [.OH, .O2], none⟩),
   (.r19f, .r19b, ⟨[.HO2, .OH], [.O2, .H2O], none⟩),
   (.r20f, .r20b, ⟨[.HO2, .HO2], [.O2, .H2O2], none⟩),
   (.r21f, .r21b, ⟨[.HO2, .HO2], [.O2, .H2O2], none⟩),
   (.r22f, .r22b, ⟨[.H2O2], [.OH, .OH], none⟩),
   (.r23f, .r23b, ⟨[.H2O2, .H], [.OH, .H2O], none⟩),
   (.r24f, .r24b, ⟨[.H2O2, .H], [.H2, .HO2], none⟩),
   (.r25f, .r25b, ⟨[.H2O2, .O], [.HO2, .OH], none⟩),
   (.r26f, .r26b, ⟨[.H2O2, .OH], [.H2O, .HO2], none⟩),
   (.r27f, .r27b, ⟨[.H2O2, .OH], [.H2O, .HO2], none⟩)]

section
variable {K : Type*} [Field K]

/-- Law of mass action: net rate of one reversible reaction. -/
def netRate (q : ReactionEq) (kf kb : K) (M : BTb → K) (c : BSp → K) : K :=
  (kf * (q.left.map c).prod - kb * (q.right.map c).prod) * (q.third.elim 1 M)

/-- Law of mass action: production of species `i` by all reactions, with stoichiometric
coefficient (number of `i` on the right) - (number of `i` on the left). -/
def massAction (k : BRx → K) (M : BTb → K) (c : BSp → K) (i : BSp) : K :=
  (burkeMechanism.map fun q =>
    ((q.2.2.right.count i : K) - (q.2.2.left.count i : K)) *
      netRate q.2.2 (k q.1) (k q.2.1) M c).sum

end

/-- Number of atoms of an element in a list of molecules. -/
def atomsOf (l : List BSp) (e : Element) : ℕ := (l.map (fun i => atoms i e)).sum

end Fub
