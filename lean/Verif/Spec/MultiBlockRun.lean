import Verif.Spec.Subcycle
import Verif.Model.MultiBlockRun

/-!
Specification vocabulary for runs with several blocks: the view of one block.
-/

namespace Fub
variable {K S C : Type}

/-- `o` shows a part of the state of a block (for instance its clocks and its levels), and this part evolves by itself according to `V`. -/
structure LevelSys.Shows (B : LevelSys K S) (V : LevelSys K C) (o : S → C) : Prop where
  levelExists : ∀ s l, V.levelExists (o s) l = B.levelExists s l
  pre : ∀ l dt sub s, o (B.pre l dt sub s) = V.pre l dt sub (o s)
  reset : ∀ f c s, o (B.reset f c s) = V.reset f c (o s)
  corr : ∀ f c dt s, o (B.corr f c dt s) = V.corr f c dt (o s)
  coarsen : ∀ f c s, o (B.coarsen f c s) = V.coarsen f c (o s)
  complete : ∀ l dt s, o (B.complete l dt s) = V.complete l dt (o s)
  copyBack : ∀ l s, o (B.copyBack l s) = V.copyBack l (o s)
  post : ∀ l dt sub s, (B.post l dt sub s).2 = none → V.post l dt sub (o s) = (o (B.post l dt sub s).1, none)

/-- A step of level `l` only regrids finer levels; all other operations keep all levels. -/
structure LevelSys.KeepsLevels (V : LevelSys K C) : Prop where
  pre : ∀ l dt sub s k, k ≤ l → V.levelExists (V.pre l dt sub s) k = V.levelExists s k
  reset : ∀ f c s k, V.levelExists (V.reset f c s) k = V.levelExists s k
  adv : ∀ l dt sub s k, V.levelExists (V.adv l dt sub s).1 k = V.levelExists s k
  corr : ∀ f c dt s k, V.levelExists (V.corr f c dt s) k = V.levelExists s k
  coarsen : ∀ f c s k, V.levelExists (V.coarsen f c s) k = V.levelExists s k
  complete : ∀ l dt s k, V.levelExists (V.complete l dt s) k = V.levelExists s k
  copyBack : ∀ l s k, V.levelExists (V.copyBack l s) k = V.levelExists s k
  post : ∀ l dt sub s k, V.levelExists (V.post l dt sub s).1 k = V.levelExists s k

/-- The levels of a block are numbered without gaps. -/
def LevelSys.NoGaps (V : LevelSys K C) : Prop := ∀ c l, V.levelExists c (l + 1) = true → V.levelExists c l = true

/-- All blocks have the same levels. -/
def SameLevels {ι : Type} (B : ι → LevelSys K S) (b : ι → S) : Prop := ∀ i j l, (B i).levelExists (b i) l = (B j).levelExists (b j) l

end Fub
