import Verif.Model.States
import Verif.Spec.Layout

namespace Fub

/-- The position of a cell in an array with the given numbers of cells, the first direction running fastest. -/
def cellNumber : List Nat → List Int → Int
  | n :: ns, i :: is => i + (n : Int) * cellNumber ns is
  | _, _ => 0

/-- Where AMReX keeps component `k` of the cell `c` of a Fab whose lowest cell is `lo`: the components one after the other, each of them
the array of all cells. -/
def fabAddress (data : Int) (lo : List Int) (len : List Nat) (k : Nat) (c : List Int) : Int :=
  data + (k : Int) * (len.prod : Nat) + cellNumber len (List.zipWith (fun (a b : Int) => a - b) c lo)

/-- The number of components of a list of variables. -/
def totalComponents (ds : List VarDepth) : Nat := (ds.map VarDepth.count).sum

/-- The cell of the Fab that belongs to a cell of an equation with fewer dimensions: the lowest one in the remaining directions. -/
def fabCell (rank : Nat) (lo i : List Int) : List Int := i ++ lo.drop rank

/-- A cell of the box `[lo, lo + len)`. -/
def CellIn (lo : List Int) (len : List Nat) (c : List Int) : Prop := InRange len (List.zipWith (fun (a b : Int) => a - b) c lo) ∧ c.length = lo.length

/-- The box `[lo', up')` is not empty and lies in `[lo, lo + len)`. -/
def BoxIn (lo : List Int) (len : List Nat) (lo' up' : List Int) : Prop :=
  List.Forall₂ (fun (p : Int × Nat) (q : Int × Int) => p.1 ≤ q.1 ∧ q.1 < q.2 ∧ q.2 ≤ p.1 + (p.2 : Int)) (lo.zip len) (lo'.zip up') ∧
    lo.length = len.length ∧ lo'.length = lo.length ∧ up'.length = lo.length

/-- The cell which is `l` cells further in the first direction. -/
def shiftX (i : List Int) (l : Int) : List Int :=
  match i with
  | [] => []
  | a :: is => (a + l) :: is

/-- A well-formed variable of a view of rank `rank` whose cells have the strides `str` and whose lowest cell is `org`. -/
def VarWF (rank : Nat) (str : List Nat) (org : List Int) : StVar → Prop
  | .scalar v => v.mds.str = str ∧ v.org = org ∧ str.length = rank ∧ org.length = rank
  | .vector v => (∃ (c : Nat) (o : Int), v.mds.str = str ++ [c] ∧ v.org = org ++ [o]) ∧ str.length = rank ∧ org.length = rank ∧
      v.mds.ext.length = rank + 1 ∧ (v.mds.layout = .left → v.mds.str = stridesLeft v.mds.ext)

end Fub
