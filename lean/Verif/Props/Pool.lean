import Verif.Spec.Pool
import Mathlib.Data.List.Basic
import Mathlib.Data.List.Nodup
import Mathlib.Data.List.Induction
import Mathlib.Logic.Function.Iterate

/-!
# C26: the pool allocator
-/

namespace Fub

/-- Invariant of histories with at most one block of each size in use. -/
structure PoolInv (r : PoolRun) : Prop where
  headSize : ∀ b p, r.pool.head b = some p → r.pool.size p = b ∧ p < r.pool.fresh
  cycle : ∀ b p, r.pool.head b = some p → p ∉ r.live.map Prod.fst → r.pool.next p = some p
  liveHead : ∀ p b, (p, b) ∈ r.live → r.pool.head b = some p
  liveNodup : (r.live.map Prod.fst).Nodup

theorem poolInv_live_size {r : PoolRun} (h : PoolInv r) {p b : Nat} (hp : (p, b) ∈ r.live) : r.pool.size p = b :=
  (h.headSize b p (h.liveHead p b hp)).1

theorem mem_live_fst {r : PoolRun} {p : Nat} (h : p ∈ r.live.map Prod.fst) : ∃ b, (p, b) ∈ r.live := by
  obtain ⟨q, hq, rfl⟩ := List.mem_map.1 h
  exact ⟨q.2, hq⟩

theorem poolInv_alloc {r : PoolRun} (h : PoolInv r) (b : Nat) (hb : b ∉ r.live.map Prod.snd) :
    (r.pool.allocate b).1 ∉ r.live.map Prod.fst ∧ PoolInv ⟨(r.pool.allocate b).2, ((r.pool.allocate b).1, b) :: r.live⟩ := by
  have hlt : ∀ p ∈ r.live.map Prod.fst, p < r.pool.fresh := by
    intro p hp
    obtain ⟨c, hc⟩ := mem_live_fst hp
    exact (h.headSize c p (h.liveHead p c hc)).2
  rcases hd : r.pool.head b with _ | p
  · have hfresh : r.pool.fresh ∉ r.live.map Prod.fst := fun hm => absurd (hlt _ hm) (Nat.lt_irrefl _)
    have e : r.pool.allocate b = (r.pool.fresh, { head := Function.update r.pool.head b (some r.pool.fresh)
                                                  next := Function.update r.pool.next r.pool.fresh none
                                                  size := Function.update r.pool.size r.pool.fresh b
                                                  all := r.pool.all ++ [r.pool.fresh]
                                                  fresh := r.pool.fresh + 1 }) := by
      simp [Pool.allocate, hd]
    rw [e]
    refine ⟨hfresh, ?_, ?_, ?_, ?_⟩
    · intro c p hp
      simp only at hp ⊢
      by_cases hc : c = b
      · subst hc
        simp only [Function.update_self, Option.some.injEq] at hp; subst hp
        simp
      · rw [Function.update_of_ne hc] at hp
        have h1 := h.headSize c p hp
        have : p ≠ r.pool.fresh := by omega
        rw [Function.update_of_ne this]
        exact ⟨h1.1, by omega⟩
    · intro c p hp hn
      simp only [List.map_cons, List.mem_cons, not_or] at hp hn ⊢
      by_cases hc : c = b
      · subst hc
        simp only [Function.update_self, Option.some.injEq] at hp; exact absurd hp.symm hn.1
      · rw [Function.update_of_ne hc] at hp
        rw [Function.update_of_ne hn.1]
        exact h.cycle c p hp hn.2
    · intro p c hp
      simp only [List.mem_cons, Prod.mk.injEq] at hp ⊢
      rcases hp with ⟨rfl, rfl⟩ | hp
      · simp
      · have hc : c ≠ b := fun e => hb (List.mem_map.2 ⟨(p, c), hp, e⟩)
        rw [Function.update_of_ne hc]
        exact h.liveHead p c hp
    · simp only [List.map_cons, List.nodup_cons]
      exact ⟨hfresh, h.liveNodup⟩
  · have hp : p ∉ r.live.map Prod.fst := by
      intro hm
      obtain ⟨c, hc⟩ := mem_live_fst hm
      have := poolInv_live_size h hc
      have := (h.headSize b p hd).1
      exact hb (List.mem_map.2 ⟨(p, c), hc, by simp; omega⟩)
    have hn := h.cycle b p hd hp
    have e : r.pool.allocate b = (p, r.pool) := by
      simp only [Pool.allocate, hd, hn, Prod.mk.injEq, true_and]
      rw [← hd, Function.update_eq_self]
    rw [e]
    refine ⟨hp, h.headSize, ?_, ?_, ?_⟩
    · intro c q hq hn
      simp only [List.map_cons, List.mem_cons, not_or] at hn
      exact h.cycle c q hq hn.2
    · intro q c hq
      simp only [List.mem_cons, Prod.mk.injEq] at hq
      rcases hq with ⟨rfl, rfl⟩ | hq
      · exact hd
      · exact h.liveHead q c hq
    · simp only [List.map_cons, List.nodup_cons]
      exact ⟨hp, h.liveNodup⟩

theorem poolInv_free {r : PoolRun} (h : PoolInv r) (p : Nat) (hp : p ∈ r.live.map Prod.fst) :
    PoolInv ⟨r.pool.deallocate p, r.live.eraseP (fun q => q.1 == p)⟩ := by
  obtain ⟨b, hb⟩ := mem_live_fst hp
  have hs := poolInv_live_size h hb
  have hh := h.liveHead p b hb
  have e : r.pool.deallocate p = { r.pool with next := Function.update r.pool.next p (some p) } := by
    simp only [Pool.deallocate, hs, hh]
    congr 1
    rw [← hh, Function.update_eq_self]
  rw [e]
  have hmem : ∀ q, q ∈ (r.live.eraseP (fun q => q.1 == p)).map Prod.fst ↔ q ∈ r.live.map Prod.fst ∧ q ≠ p := by
    intro q
    have := h.liveNodup
    have e2 : (r.live.eraseP (fun q => q.1 == p)).map Prod.fst = (r.live.map Prod.fst).erase p := by
      generalize r.live = l
      induction l with
      | nil => rfl
      | cons a l ih =>
        by_cases ha : a.1 = p
        · simp [ha]
        · have : (a.1 == p) = false := by simpa using ha
          rw [List.eraseP_cons, this, List.map_cons, List.erase_cons, this]
          simp [ih]
    rw [e2, List.Nodup.mem_erase_iff this]
    exact and_comm
  refine ⟨h.headSize, ?_, ?_, ?_⟩
  · intro c q hq hn
    rw [hmem] at hn
    simp only at hq ⊢
    by_cases hqp : q = p
    · subst hqp; simp
    · rw [Function.update_of_ne hqp]
      exact h.cycle c q hq (fun hm => hn ⟨hm, hqp⟩)
  · intro q c hq
    exact h.liveHead q c (List.mem_of_mem_eraseP hq)
  · have := h.liveNodup
    exact (List.eraseP_sublist.map Prod.fst).nodup this

theorem poolInv_write {r : PoolRun} (h : PoolInv r) (p : Nat) (v : Option Nat) (hp : p ∈ r.live.map Prod.fst) :
    PoolInv ⟨r.pool.write p v, r.live⟩ := by
  refine ⟨h.headSize, ?_, h.liveHead, h.liveNodup⟩
  intro c q hq hn
  have : q ≠ p := fun e => hn (e ▸ hp)
  simp only [Pool.write, Function.update_of_ne this]
  exact h.cycle c q hq hn

theorem onePerSize_alloc {h : List PoolOp} {b : Nat} {r : PoolRun} (ho : OnePerSize (h ++ [.alloc b])) (hr : PoolRun.run h = some r) :
    b ∉ r.live.map Prod.snd := by
  have hr' : PoolRun.run (h ++ [.alloc b]) = some ⟨(r.pool.allocate b).2, ((r.pool.allocate b).1, b) :: r.live⟩ := by
    have : PoolRun.run h = some r := hr
    simp only [PoolRun.run] at this ⊢
    rw [List.foldlM_append, this]; rfl
  have := ho (h ++ [.alloc b]) [] _ (by simp) hr'
  exact (List.nodup_cons.1 (by simpa using this)).1

theorem poolInv_run (h : List PoolOp) (ho : OnePerSize h) (r : PoolRun) (hr : PoolRun.run h = some r) : PoolInv r := by
  induction h using List.reverseRecOn generalizing r with
  | nil =>
    simp only [PoolRun.run, List.foldlM_nil] at hr
    cases hr
    exact ⟨by simp [Pool.init], by simp [Pool.init], by simp, by simp⟩
  | append_singleton h op ih =>
    have hr0 := hr
    simp only [PoolRun.run] at hr
    rw [List.foldlM_append] at hr
    cases hq : PoolRun.run h with
    | none => simp only [PoolRun.run] at hq; rw [hq] at hr; cases hr
    | some q =>
      have hpre : OnePerSize h := fun h1 h2 r' e1 e2 => ho h1 (h2 ++ [op]) r' (by rw [e1, List.append_assoc]) e2
      have hi := ih hpre q hq
      have hstep : (q.step op).map Prod.fst = some r := by
        simp only [PoolRun.run] at hq
        rw [hq] at hr
        simpa using hr
      cases op with
      | alloc b =>
        have := (poolInv_alloc hi b (onePerSize_alloc ho hq)).2
        simp only [PoolRun.step, Option.map_some, Option.some.injEq] at hstep
        rw [← hstep]; exact this
      | free p =>
        simp only [PoolRun.step] at hstep
        split at hstep
        · rename_i hp
          simp only [Option.map_some, Option.some.injEq] at hstep
          rw [← hstep]; exact poolInv_free hi p hp
        · cases hstep
      | write p v =>
        simp only [PoolRun.step] at hstep
        split at hstep
        · rename_i hp
          simp only [Option.map_some, Option.some.injEq] at hstep
          rw [← hstep]; exact poolInv_write hi p v hp
        · cases hstep

/-- **C26 (partial).** Over every history in which at most one block of each size is in use at any time, with arbitrary writes by the user
into the blocks, an allocation never returns a block that is in use. Missing: two blocks of the same size, see `pool_aliasing`. -/
theorem pool_partial (h : List PoolOp) (b : Nat) (ho : OnePerSize (h ++ [.alloc b])) : NotInUse h (.alloc b) := by
  intro r r' p hr hs
  have hpre : OnePerSize h := fun h1 h2 r' e1 e2 => ho h1 (h2 ++ [.alloc b]) r' (by rw [e1, List.append_assoc]) e2
  have := (poolInv_alloc (poolInv_run h hpre r hr) b (onePerSize_alloc ho hr)).1
  simp only [PoolRun.step, Option.some.injEq, Prod.mk.injEq] at hs
  rw [← hs.2]; exact this

/-- Histories that meet the hypothesis exist: a block of 8 and one of 16 bytes, the first is written and freed. -/
example : OnePerSize [.alloc 8, .alloc 16, .write 0 (some 7), .free 0, .alloc 8] := by
  intro h1 h2 r e hr
  have : h1.length ≤ 5 := by have := congrArg List.length e; simp at this; omega
  have hh : h1 = List.take h1.length [.alloc 8, .alloc 16, .write 0 (some 7), .free 0, .alloc 8] := by rw [e]; simp
  rw [hh] at hr
  generalize h1.length = k at *
  have hk : k = 0 ∨ k = 1 ∨ k = 2 ∨ k = 3 ∨ k = 4 ∨ k = 5 := by omega
  rcases hk with rfl | rfl | rfl | rfl | rfl | rfl <;> (cases hr; decide)

/-- **C26 fails**: the second request for 16 bytes returns the block that the first request returned and that is still in use. -/
theorem pool_aliasing : ¬ NotInUse [.alloc 16] (.alloc 16) := by
  intro h
  exact h _ _ _ rfl rfl (by decide)

/-- After a block was freed, every further request of its size returns this block, no matter how many are in use. -/
theorem pool_cycle (s : Pool) (b : Nat) (h : s.head b = none) (n : Nat) (q : Nat × Pool) (hq : q = s.allocate b) :
    (((fun s : Pool => (s.allocate b).2)^[n] (q.2.deallocate q.1)).allocate b).1 = q.1 := by
  have e : q = (s.fresh, { head := Function.update s.head b (some s.fresh)
                           next := Function.update s.next s.fresh none
                           size := Function.update s.size s.fresh b
                           all := s.all ++ [s.fresh]
                           fresh := s.fresh + 1 }) := by
    rw [hq]; simp [Pool.allocate, h]
  have key : ∀ n, let t := (fun s : Pool => (s.allocate b).2)^[n] (q.2.deallocate q.1)
      t.head b = some q.1 ∧ t.next q.1 = some q.1 := by
    intro n
    induction n with
    | zero => rw [e]; simp [Pool.deallocate]
    | succ n ih =>
      rw [Function.iterate_succ_apply']
      generalize ((fun s : Pool => (s.allocate b).2)^[n] (q.2.deallocate q.1)) = u at ih ⊢
      obtain ⟨h1, h2⟩ := ih
      simp [Pool.allocate, h1, h2]
  obtain ⟨h1, -⟩ := key n
  generalize ((fun s : Pool => (s.allocate b).2)^[n] (q.2.deallocate q.1)) = u at h1
  simp only [Pool.allocate, h1]

/-- The destructor gives every block that was obtained from the upstream resource back exactly once ... -/
theorem pool_returns_all (h : List PoolOp) (r : PoolRun) (hr : PoolRun.run h = some r) :
    r.pool.destroy.map Prod.fst = List.range r.pool.fresh := by
  have key : ∀ (h : List PoolOp) (r r' : PoolRun), h.foldlM (fun r op => (PoolRun.step r op).map Prod.fst) r = some r' →
      r.pool.all = List.range r.pool.fresh → r'.pool.all = List.range r'.pool.fresh := by
    intro h
    induction h with
    | nil => intro r r' hr hi; simp at hr; subst hr; exact hi
    | cons op h ih =>
      intro r r' hr hi
      rw [List.foldlM_cons] at hr
      cases hs : r.step op with
      | none => rw [hs] at hr; cases hr
      | some q =>
        rw [hs] at hr
        refine ih q.1 r' hr ?_
        cases op with
        | alloc b =>
          simp only [PoolRun.step, Option.some.injEq] at hs
          rw [← hs]
          simp only [Pool.allocate]
          split
          · exact hi
          · simp [hi, List.range_succ]
        | free p => simp only [PoolRun.step] at hs; split at hs <;> cases hs; exact hi
        | write p v => simp only [PoolRun.step] at hs; split at hs <;> cases hs; exact hi
  have := key h _ r hr rfl
  simp [Pool.destroy, this, Function.comp_def]

/-- ... but with the wrong size: a block of 16 bytes and its header are returned as one byte. -/
theorem pool_destroy_size : ((Pool.init.allocate 16).2.destroy) = [(0, 1)] ∧ (Pool.init.allocate 16).2.size 0 = 16 := by decide

end Fub
