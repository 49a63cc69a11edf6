import Verif.Model.MatlabGrid

/-!
How a reader of the Matlab files understands them, in terms of the file only.
-/

namespace Fub

/-- Position of the entry with the offsets `o` in a column-major array with the lengths `len`: the first coordinate is the fastest. -/
def columnPos : List ℕ → List ℕ → ℕ
  | l :: ls, o :: os => o + l * columnPos ls os
  | _, _ => 0

/-- `data(o_1, ..., o_n, c)` of the array of the file, counted from zero. -/
def MatFile.read {K : Type} (f : MatFile K) (o : List ℕ) (c : ℕ) : Option K := f.bin[columnPos f.size (o ++ [c])]?

/-- The coordinates of an entry: `x0 + o * dx`. -/
def MatFile.place {K : Type} [Field K] (f : MatFile K) (o : List ℕ) : List K :=
  List.zipWith (· + ·) f.x0 (List.zipWith (fun (k : ℕ) h => (k : K) * h) o f.dx)

/-- The fine domain is the coarse domain refined. -/
def DomRefines {n : ℕ} (coarse fine : ABox n) (r : Index n) : Prop :=
  ∀ d, 0 < r d ∧ fine.lo d = r d * coarse.lo d ∧ fine.hi d + 1 = r d * (coarse.hi d + 1)

/-- The domains of all levels, from the finest to the coarsest, are refinements of each other. -/
def MatNested {n : ℕ} {K : Type} : List (MatLevel n K) → Prop
  | [] => True
  | [_] => True
  | l :: m :: rest => DomRefines m.dom l.dom l.lev.ratio ∧ MatNested (m :: rest)

/-- The offsets of a cell in its box. -/
def offsets {n : ℕ} (b : ABox n) (i : Index n) : List ℕ := (List.finRange n).map fun d => (i d - b.lo d).toNat

end Fub
