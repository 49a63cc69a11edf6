import Mathlib.Logic.Function.Basic

/-!
# Model of the pool allocator `monotonic_bucket_resource`

Source: `/repo/src/PoolAllocator.cpp`, `/repo/include/fub/PoolAllocator.hpp`.

Memory is modelled as far as the allocator uses it: every block has a header word with its size and a first payload word, which the
allocator reads as `bucket_node::next` and which the user of the block overwrites.
Addresses of payloads are natural numbers; the upstream resource returns a fresh block on every call (its contract).
Simplifications: allocation never fails; blocks smaller than a pointer (for which writing the node is out of bounds) are not excluded but
their overlap with other memory is not modelled. The constructor and `do_is_equal` are declared but not defined in the source.
-/

namespace Fub

/-- State of the resource together with the memory it manages. Serves the model of /repo/src/PoolAllocator.cpp:13-35. -/
structure Pool where
  /-- `free_buckets_`: head of the free list per size, `none` is `nullptr` -/
  head : Nat → Option Nat
  /-- first payload word of every block, read as a pointer -/
  next : Nat → Option Nat
  /-- header word of every block -/
  size : Nat → Nat
  /-- `all_pointers_` -/
  all : List Nat
  /-- number of blocks obtained from the upstream resource, also the next fresh address -/
  fresh : Nat

/-- A new resource. Serves the model of /repo/src/PoolAllocator.cpp:13-35. -/
def Pool.init : Pool := ⟨fun _ => none, fun _ => none, fun _ => 0, [], 0⟩

/-- `do_allocate(bytes, _)`, /repo/src/PoolAllocator.cpp:13-35. -/
def Pool.allocate (s : Pool) (bytes : Nat) : Nat × Pool :=
  match s.head bytes with
  | some p => (p, { s with head := Function.update s.head bytes (s.next p) })       -- 18-25
  | none =>                                                                         -- 27-34
    let p := s.fresh
    (p, { head := Function.update s.head bytes (some p)
          next := Function.update s.next p (s.head bytes)
          size := Function.update s.size p bytes
          all := s.all ++ [p]
          fresh := s.fresh + 1 })

/-- `do_deallocate(p, _, _)`, /repo/src/PoolAllocator.cpp:37-43. -/
def Pool.deallocate (s : Pool) (p : Nat) : Pool :=
  let bytes := s.size p
  { s with next := Function.update s.next p (s.head bytes), head := Function.update s.head bytes (some p) }

/-- The user writes a word at the beginning of a block. Serves the model of /repo/src/PoolAllocator.cpp:13-35. -/
def Pool.write (s : Pool) (p : Nat) (v : Option Nat) : Pool := { s with next := Function.update s.next p v }

/-- Calls of a user. Serves the model of /repo/src/PoolAllocator.cpp:13-35. -/
inductive PoolOp where
  | alloc (bytes : Nat)
  | free (p : Nat)
  | write (p : Nat) (v : Option Nat)
deriving DecidableEq, Repr

/-- The destructor returns every block to the upstream resource: address of the payload and the size passed to `deallocate`,
/repo/src/PoolAllocator.cpp:45-51. -/
def Pool.destroy (s : Pool) : List (Nat × Nat) := s.all.map fun p => (p, 1)

end Fub
