import Verif.Model.Pool

/-!
# Specification of an allocator
-/

namespace Fub

/-- The state of a run: the pool and the blocks in use, with the size they were requested with. -/
structure PoolRun where
  pool : Pool
  live : List (Nat × Nat)

/-- One call. A user only frees and writes blocks that are in use; other calls end the run (`none`). The second component is the block
returned by an allocation. -/
def PoolRun.step (r : PoolRun) : PoolOp → Option (PoolRun × Option Nat)
  | .alloc b =>
    let (p, s) := r.pool.allocate b
    some (⟨s, (p, b) :: r.live⟩, some p)
  | .free p => if p ∈ r.live.map Prod.fst then
      some (⟨r.pool.deallocate p, r.live.eraseP (fun q => q.1 == p)⟩, none) else none
  | .write p v => if p ∈ r.live.map Prod.fst then some (⟨r.pool.write p v, r.live⟩, none) else none

/-- The run of a history, with the state before the last call. -/
def PoolRun.run (h : List PoolOp) : Option PoolRun :=
  h.foldlM (fun r op => (r.step op).map Prod.fst) ⟨Pool.init, []⟩

/-- The block that `op` returns after the history `h` is not in use. -/
def NotInUse (h : List PoolOp) (op : PoolOp) : Prop :=
  ∀ r r' p, PoolRun.run h = some r → r.step op = some (r', some p) → p ∉ r.live.map Prod.fst

/-- After no prefix of the history two blocks of the same size are in use. -/
def OnePerSize (h : List PoolOp) : Prop :=
  ∀ h1 h2 r, h = h1 ++ h2 → PoolRun.run h1 = some r → (r.live.map Prod.snd).Nodup

end Fub
