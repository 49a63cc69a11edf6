import Verif.Model.MultiBlockFirst
import Mathlib.Tactic.NormNum
import Mathlib.Data.List.Basic

namespace Fub

variable {S : Type}

/-! ### Readiness of the blocks -/

section Ready
variable {K G Opt Meth Cb : Type}

/-- A block is ready for a step: each of its levels has level data, so that its time point is defined. -/
def BlockReady (c : Ctx K G Opt Meth Cb) : Prop := ∀ l, l < c.hier.length → ∃ t, c.getTimePoint l = some t

theorem pre_ready (c : Ctx K G Opt Meth Cb) : BlockReady c.preAdvanceHierarchy := by
  intro l hl
  unfold Ctx.preAdvanceHierarchy at hl ⊢
  by_cases h : c.data.length ≠ c.hier.length
  · rw [if_pos h] at hl ⊢
    have hl' : l < c.hier.length := hl
    refine ⟨(c.hier[l]).time, ?_⟩
    simp [Ctx.getTimePoint, Ctx.reset, resetLevel, hl']
  · rw [if_neg h] at hl ⊢
    have hl' : l < c.data.length := by omega
    exact ⟨(c.data[l]).time, by simp [Ctx.getTimePoint, hl']⟩

/-- The second version prepares every block, whatever the blocks are. -/
theorem second_blocks_ready (b : List (Ctx K G Opt Meth Cb) × List (Ctx K G Opt Meth Cb)) :
    (∀ c ∈ (secondPreHierarchy b).1, BlockReady c) ∧ (∀ c ∈ (secondPreHierarchy b).2, BlockReady c)
      ∧ (secondPreHierarchy b).1.length = b.1.length ∧ (secondPreHierarchy b).2.length = b.2.length := by
  refine ⟨?_, ?_, by simp [secondPreHierarchy], by simp [secondPreHierarchy]⟩ <;>
  · intro c hc
    obtain ⟨d, _, rfl⟩ := List.mem_map.mp hc
    exact pre_ready d

/-- The first version prepares the plena. -/
theorem first_plena_ready_partial (b : List (Ctx K G Opt Meth Cb) × List (Ctx K G Opt Meth Cb)) :
    ∀ c ∈ (firstPreHierarchy b).2, BlockReady c := by
  intro c hc
  obtain ⟨d, _, rfl⟩ := List.mem_map.mp hc
  exact pre_ready d

/-- A tube with a level and without level data, as every new or copied context: in the first version it is not ready, however often the hierarchy is prepared and finished. -/
theorem first_tubes_never_ready (b : List (Ctx K G Opt Meth Cb) × List (Ctx K G Opt Meth Cb)) (c : Ctx K G Opt Meth Cb) (hc : c ∈ b.1)
    (hd : c.data = []) (hh : c.hier ≠ []) (n : ℕ) :
    ∃ c' ∈ (firstPreHierarchy ((fun x => firstPostHierarchy (firstPreHierarchy x))^[n] b)).1, ¬ BlockReady c' := by
  have h1 : ∀ n : ℕ, ((fun x => firstPostHierarchy (firstPreHierarchy x))^[n] b).1 = b.1 := by
    intro n
    induction n with
    | zero => rfl
    | succ n ih => rw [Function.iterate_succ_apply']; exact ih
  refine ⟨c, ?_, ?_⟩
  · show c ∈ ((fun x => firstPostHierarchy (firstPreHierarchy x))^[n] b).1
    rw [h1]; exact hc
  · intro hr
    obtain ⟨t, ht⟩ := hr 0 (List.length_pos_iff.mpr hh)
    simp [Ctx.getTimePoint, hd] at ht

end Ready

/-- The hypotheses of `first_tubes_never_ready` are met by the copy of any context with a level. -/
example : ∃ c : Ctx ℚ Unit Unit Unit Unit, c.copy.data = [] ∧ c.copy.hier ≠ [] ∧ c.data ≠ [] ∧ ¬ BlockReady c.copy ∧ BlockReady c.copy.preAdvanceHierarchy := by
  let c : Ctx ℚ Unit Unit Unit Unit := Ctx.preAdvanceHierarchy { options := (), hier := [⟨1, 3, ()⟩, ⟨1, 6, ()⟩], maxLevels := 2, data := [], method := (), feedback := none, userStableDt := none, countPerLevel := false, script := [] }
  refine ⟨c, rfl, by simp [c, Ctx.copy, Ctx.preAdvanceHierarchy, Ctx.reset], by simp [c, Ctx.preAdvanceHierarchy, Ctx.reset], ?_, pre_ready _⟩
  intro h
  obtain ⟨t, ht⟩ := h 0 (by simp [c, Ctx.copy, Ctx.preAdvanceHierarchy, Ctx.reset])
  simp [Ctx.getTimePoint, Ctx.copy] at ht

/-! ### What is written is what is computed -/

theorem copyHeap_old (heap : ℕ → S) (next : ℕ) (refs : List ℕ) (k : ℕ) (h : k < next) : copyHeap heap next refs k = heap k := by
  unfold copyHeap; rw [if_neg (by omega)]

theorem copyHeap_new (heap : ℕ → S) (next : ℕ) (refs : List ℕ) :
    (List.range' next refs.length).map (copyHeap heap next refs) = refs.map heap := by
  apply List.ext_getElem
  · simp
  · intro i h1 h2
    have hi : i < refs.length := by simpa using h2
    simp [copyHeap, hi]

theorem map_copyHeap_old (heap : ℕ → S) (next : ℕ) (refs l : List ℕ) (h : ∀ k ∈ l, k < next) : l.map (copyHeap heap next refs) = l.map heap := by
  apply List.map_congr_left
  intro k hk
  exact copyHeap_old _ _ _ _ (h k hk)

/-- All numbers in use are below the first free one. -/
def RefsBelow (n : ℕ) (c : PairedRefs) : Prop := (∀ k ∈ c.blocks, k < n) ∧ (∀ k ∈ c.grid, k < n)

theorem RefsBelow.mono {n m : ℕ} {c : PairedRefs} (h : RefsBelow n c) (hm : n ≤ m) : RefsBelow m c :=
  ⟨fun k hk => lt_of_lt_of_le (h.1 k hk) hm, fun k hk => lt_of_lt_of_le (h.2 k hk) hm⟩

def RunBelow (r : PairedRun S) : Prop := RefsBelow r.next r.solver ∧ ∀ b, r.backup = some b → RefsBelow r.next b

theorem copyRefs_below (second : Bool) (n : ℕ) (c : PairedRefs) (h : RefsBelow n c) : RefsBelow (n + c.blocks.length) (copyRefs second n c) := by
  have hr : ∀ k ∈ List.range' n c.blocks.length, k < n + c.blocks.length := by
    intro k hk
    rw [List.mem_range'] at hk
    obtain ⟨i, hi, rfl⟩ := hk
    omega
  refine ⟨hr, ?_⟩
  cases second
  · intro k hk
    have := h.2 k (by simpa [copyRefs] using hk)
    omega
  · intro k hk
    exact hr k (by simpa [copyRefs] using hk)

theorem runBelow_op (second : Bool) (r : PairedRun S) (h : RunBelow r) (op : PairedOp S) : RunBelow (pairedOp second r op) := by
  cases op with
  | backup =>
    refine ⟨h.1.mono (Nat.le_add_right _ _), ?_⟩
    intro b hb
    have : copyRefs second r.next r.solver = b := by simpa [pairedOp] using hb
    subst this
    exact copyRefs_below second _ _ h.1
  | restore =>
    cases hb : r.backup with
    | none => simpa [pairedOp, hb] using h
    | some b =>
      have hB := h.2 b hb
      unfold RunBelow
      simp only [pairedOp, hb]
      refine ⟨copyRefs_below second _ _ hB, ?_⟩
      intro b' hb'
      simp only [Option.some.injEq] at hb'
      subst hb'
      exact hB.mono (Nat.le_add_right _ _)
  | step f => exact h

theorem runBelow_run (second : Bool) (r : PairedRun S) (h : RunBelow r) (ops : List (PairedOp S)) : RunBelow (pairedRun second r ops) := by
  induction ops generalizing r with
  | nil => exact h
  | cons op ops ih => exact ih _ (runBelow_op second r h op)

theorem runBelow_make (states : List S) (d : S) : RunBelow (pairedMake states d) := by
  refine ⟨⟨?_, ?_⟩, ?_⟩
  · intro k hk; simpa [pairedMake] using hk
  · intro k hk; simpa [pairedMake] using hk
  · intro b hb; simp [pairedMake] at hb

theorem second_grid (ops : List (PairedOp S)) : ∀ (r : PairedRun S), r.solver.grid = r.solver.blocks →
    (pairedRun true r ops).solver.grid = (pairedRun true r ops).solver.blocks := by
  induction ops with
  | nil => intro r h; exact h
  | cons op ops ih =>
    intro r h
    apply ih
    cases op with
    | backup => exact h
    | restore =>
      cases hb : r.backup with
      | none => simpa [pairedOp, hb] using h
      | some b => simp [pairedOp, hb, copyRefs]
    | step f => exact h

/-- The second version, after any history: the output shows what is computed. -/
theorem second_output_current (states : List S) (d : S) (ops : List (PairedOp S)) :
    pairedOutput (pairedRun true (pairedMake states d) ops) = pairedComputed (pairedRun true (pairedMake states d) ops) := by
  unfold pairedOutput pairedComputed
  rw [second_grid ops _ rfl]

/-- Operations other than a backup keep the backup and the grids it refers to. -/
theorem backup_kept (second : Bool) (B : PairedRefs) (ops : List (PairedOp S)) (hno : PairedOp.backup ∉ ops) :
    ∀ q : PairedRun S, q.backup = some B → (∀ k ∈ B.blocks, k < q.next ∧ k ∉ q.solver.blocks) →
      (pairedRun second q ops).backup = some B ∧ (∀ k ∈ B.blocks, (pairedRun second q ops).heap k = q.heap k) := by
  induction ops with
  | nil => intro q h1 _; exact ⟨h1, fun _ _ => rfl⟩
  | cons op ops ih =>
    intro q h1 h2
    have hno' : PairedOp.backup ∉ ops := fun hm => hno (List.mem_cons_of_mem _ hm)
    cases op with
    | backup => exact absurd List.mem_cons_self hno
    | restore =>
      obtain ⟨g1, g2⟩ := ih hno' (pairedOp second q PairedOp.restore) (by simp [pairedOp, h1]) (by
        intro k hk
        have := (h2 k hk).1
        simp only [pairedOp, h1]
        refine ⟨by omega, ?_⟩
        intro hm
        simp only [copyRefs, List.mem_range'] at hm
        obtain ⟨i, _, hi⟩ := hm
        omega)
      refine ⟨g1, ?_⟩
      intro k hk
      refine (g2 k hk).trans ?_
      simp only [pairedOp, h1]
      exact copyHeap_old _ _ _ _ (h2 k hk).1
    | step f =>
      obtain ⟨g1, g2⟩ := ih hno' (pairedOp second q (PairedOp.step f)) h1 h2
      refine ⟨g1, ?_⟩
      intro k hk
      refine (g2 k hk).trans ?_
      simp [pairedOp, (h2 k hk).2]

theorem restore_state_aux (second : Bool) (r : PairedRun S) (h : RunBelow r) (hg : second = true → r.solver.grid = r.solver.blocks) (mid : List (PairedOp S)) (hno : PairedOp.backup ∉ mid) :
    pairedComputed (pairedRun second r (PairedOp.backup :: (mid ++ [PairedOp.restore]))) = pairedComputed r := by
  have hrun : pairedRun second r (PairedOp.backup :: (mid ++ [PairedOp.restore]))
      = pairedOp second (pairedRun second (pairedOp second r PairedOp.backup) mid) PairedOp.restore := by
    simp [pairedRun, List.foldl_append]
  obtain ⟨h2, h3⟩ := backup_kept second (copyRefs second r.next r.solver) mid hno (pairedOp second r PairedOp.backup) rfl (by
    intro k hk
    have hk' : k ∈ List.range' r.next r.solver.blocks.length := hk
    rw [List.mem_range'] at hk'
    obtain ⟨i, hi, rfl⟩ := hk'
    refine ⟨?_, ?_⟩
    · simp only [pairedOp]; omega
    · intro hm
      have := h.1.1 _ hm
      omega)
  rw [hrun]
  generalize pairedRun second (pairedOp second r PairedOp.backup) mid = q at h2 h3 ⊢
  have hb : q.backup = some (copyRefs second r.next r.solver) := h2
  have hc : pairedComputed (pairedOp second q PairedOp.restore) = (List.range' r.next r.solver.blocks.length).map q.heap := by
    simp only [pairedComputed, pairedOp, hb, copyRefs]
    have := copyHeap_new q.heap q.next (List.range' r.next r.solver.blocks.length)
    cases second <;> simpa using this
  rw [hc]
  have hq : (List.range' r.next r.solver.blocks.length).map q.heap = (List.range' r.next r.solver.blocks.length).map (pairedOp second r PairedOp.backup).heap := by
    apply List.map_congr_left
    intro k hk
    exact h3 k hk
  rw [hq]
  have hsrc2 : (if second = true then r.solver.grid else r.solver.blocks) = r.solver.blocks := by
    cases second
    · rfl
    · simpa using hg rfl
  simp only [pairedOp, hsrc2]
  exact copyHeap_new r.heap r.next r.solver.blocks

/-- Both versions, after any history: when the steps that follow a backup fail and the backup is restored, also repeatedly, the states of the blocks are those at the time of the backup. -/
theorem paired_restore_state (second : Bool) (states : List S) (d : S) (ops mid : List (PairedOp S)) (hno : PairedOp.backup ∉ mid) :
    pairedComputed (pairedRun second (pairedMake states d) (ops ++ PairedOp.backup :: (mid ++ [PairedOp.restore])))
      = pairedComputed (pairedRun second (pairedMake states d) ops) := by
  have hsplit : pairedRun second (pairedMake states d) (ops ++ PairedOp.backup :: (mid ++ [PairedOp.restore]))
      = pairedRun second (pairedRun second (pairedMake states d) ops) (PairedOp.backup :: (mid ++ [PairedOp.restore])) := by
    simp [pairedRun, List.foldl_append]
  rw [hsplit]
  refine restore_state_aux second _ (runBelow_run second _ (runBelow_make states d) ops) ?_ mid hno
  intro h2
  subst h2
  exact second_grid ops _ rfl

/-- Two failed steps after a backup, each followed by the restored backup. -/
example : ∀ second : Bool,
    let plus : ℤ → PairedOp ℤ := fun z => .step (fun h k => h k + z)
    pairedComputed (pairedRun second (pairedMake [0, 10] 0) [plus 1, .backup, plus 100, .restore, plus 50, .restore]) = [1, 11] := by
  decide +kernel

/-- The first version until the first restored backup: the output shows what is computed. -/
theorem first_output_current_partial (states : List S) (d : S) (ops : List (PairedOp S)) (h : PairedOp.restore ∉ ops) :
    pairedOutput (pairedRun false (pairedMake states d) ops) = pairedComputed (pairedRun false (pairedMake states d) ops) := by
  have key : ∀ (ops : List (PairedOp S)), PairedOp.restore ∉ ops → ∀ (r : PairedRun S), r.solver.grid = r.solver.blocks →
      (pairedRun false r ops).solver.grid = (pairedRun false r ops).solver.blocks := by
    intro ops
    induction ops with
    | nil => intro _ r h; exact h
    | cons op ops ih =>
      intro hno r h
      refine ih (fun hm => hno (List.mem_cons_of_mem _ hm)) _ ?_
      cases op with
      | backup => exact h
      | restore => exact absurd List.mem_cons_self hno
      | step f => exact h
  unfold pairedOutput pairedComputed
  rw [key ops h _ rfl]

/-- The first version once a backup has been restored: the output never changes again, whatever is computed afterwards. -/
theorem first_output_frozen (states : List S) (d : S) (before after : List (PairedOp S)) (hb : PairedOp.backup ∈ before) :
    pairedOutput (pairedRun false (pairedMake states d) (before ++ PairedOp.restore :: after))
      = pairedOutput (pairedRun false (pairedMake states d) before) := by
  -- the grid of the solver and of the backup is that of the constructor
  let g : List ℕ := List.range states.length
  have gridInv : ∀ (ops : List (PairedOp S)) (r : PairedRun S), (r.solver.grid = g ∧ ∀ b, r.backup = some b → b.grid = g) →
      ((pairedRun false r ops).solver.grid = g ∧ ∀ b, (pairedRun false r ops).backup = some b → b.grid = g) := by
    intro ops
    induction ops with
    | nil => intro r h; exact h
    | cons op ops ih =>
      intro r h
      apply ih
      cases op with
      | backup =>
        refine ⟨h.1, ?_⟩
        intro b hb
        have : copyRefs false r.next r.solver = b := by simpa [pairedOp] using hb
        subst this
        simpa [copyRefs] using h.1
      | restore =>
        cases hb : r.backup with
        | none => simpa [pairedOp, hb] using h
        | some b =>
          simp only [pairedOp, hb]
          refine ⟨by simpa [copyRefs] using h.2 b hb, ?_⟩
          intro b' hb'
          exact h.2 b' (hb.trans hb')
      | step f => exact h
  have nextInv : ∀ (ops : List (PairedOp S)) (r : PairedRun S), r.next ≤ (pairedRun false r ops).next := by
    intro ops
    induction ops with
    | nil => intro r; exact le_rfl
    | cons op ops ih =>
      intro r
      refine le_trans ?_ (ih _)
      cases op with
      | backup => exact Nat.le_add_right _ _
      | restore =>
        cases hb : r.backup with
        | none => simp [pairedOp, hb]
        | some b => simp [pairedOp, hb]
      | step f => exact le_rfl
  -- a backup exists
  have backupInv : ∀ (ops : List (PairedOp S)) (r : PairedRun S), (PairedOp.backup ∈ ops ∨ r.backup.isSome) → (pairedRun false r ops).backup.isSome := by
    intro ops
    induction ops with
    | nil => intro r h; simpa [pairedRun] using h
    | cons op ops ih =>
      intro r h
      apply ih
      cases op with
      | backup => right; simp [pairedOp]
      | restore =>
        rcases h with h | h
        · left; simpa using h
        · right
          cases hb : r.backup with
          | none => simp [hb] at h
          | some b => simp [pairedOp, hb]
      | step f =>
        rcases h with h | h
        · left; simpa using h
        · right; exact h
  -- disjoint blocks keep the old part of the heap
  have frozen : ∀ (ops : List (PairedOp S)) (r : PairedRun S), (∀ k ∈ r.solver.blocks, states.length ≤ k) → states.length ≤ r.next →
      ∀ k, k < states.length → (pairedRun false r ops).heap k = r.heap k := by
    intro ops
    induction ops with
    | nil => intro r _ _ k _; rfl
    | cons op ops ih =>
      intro r hs hn k hk
      cases op with
      | backup =>
        refine (ih (pairedOp false r PairedOp.backup) hs (le_trans hn (Nat.le_add_right _ _)) k hk).trans ?_
        exact copyHeap_old _ _ _ _ (by omega)
      | restore =>
        cases hb : r.backup with
        | none =>
          have : pairedOp false r PairedOp.restore = r := by simp [pairedOp, hb]
          show (pairedRun false (pairedOp false r PairedOp.restore) ops).heap k = _
          rw [this]
          exact ih r hs hn k hk
        | some b =>
          refine (ih (pairedOp false r PairedOp.restore) ?_ ?_ k hk).trans ?_
          · intro j hj
            simp only [pairedOp, hb, copyRefs, List.mem_range'] at hj
            obtain ⟨i, _, rfl⟩ := hj
            omega
          · simp only [pairedOp, hb]; omega
          · simp only [pairedOp, hb]
            exact copyHeap_old _ _ _ _ (by omega)
      | step f =>
        refine (ih (pairedOp false r (PairedOp.step f)) hs hn k hk).trans ?_
        have : k ∉ r.solver.blocks := fun hm => by have := hs k hm; omega
        simp [pairedOp, this]
  have hinit : (pairedMake states d).solver.grid = g ∧ ∀ b, (pairedMake states d).backup = some b → b.grid = g := ⟨rfl, by intro b hb; simp [pairedMake] at hb⟩
  have hsplit : pairedRun false (pairedMake states d) (before ++ PairedOp.restore :: after)
      = pairedRun false (pairedOp false (pairedRun false (pairedMake states d) before) PairedOp.restore) after := by
    simp [pairedRun, List.foldl_append]
  have hg1 := (gridInv before _ hinit).1
  have hg2 := (gridInv (before ++ PairedOp.restore :: after) _ hinit).1
  have hn : states.length ≤ (pairedRun false (pairedMake states d) before).next := nextInv before (pairedMake states d)
  have hsome := backupInv before (pairedMake states d) (Or.inl hb)
  unfold pairedOutput
  rw [hg1, hg2, hsplit]
  generalize pairedRun false (pairedMake states d) before = q at hn hsome ⊢
  obtain ⟨b, hb⟩ := Option.isSome_iff_exists.mp hsome
  apply List.map_congr_left
  intro k hk
  have hk' : k < states.length := List.mem_range.mp hk
  refine (frozen after _ ?_ ?_ k hk').trans ?_
  · intro j hj
    simp only [pairedOp, hb, copyRefs, List.mem_range'] at hj
    obtain ⟨i, _, rfl⟩ := hj
    omega
  · simp only [pairedOp, hb]; omega
  · simp only [pairedOp, hb]
    exact copyHeap_old _ _ _ _ (by omega)

/-- A run of two blocks: backup, a failed step, the backup restored, two more steps. The first version computes the states 2 and 12 and writes 100 and 110; the second writes what it computes. -/
theorem first_output_wrong :
    let plus : ℤ → PairedOp ℤ := fun z => .step (fun h k => h k + z)
    let ops : List (PairedOp ℤ) := [.backup, plus 100, .restore, plus 1, .backup, plus 1]
    pairedOutput (pairedRun false (pairedMake [0, 10] 0) ops) = [100, 110]
      ∧ pairedComputed (pairedRun false (pairedMake [0, 10] 0) ops) = [2, 12]
      ∧ pairedOutput (pairedRun true (pairedMake [0, 10] 0) ops) = [2, 12]
      ∧ pairedComputed (pairedRun true (pairedMake [0, 10] 0) ops) = [2, 12] := by
  decide +kernel

end Fub
