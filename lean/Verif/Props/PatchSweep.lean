import Verif.Model.PatchSweep
import Verif.Model.LevelIntegrator
import Mathlib.Tactic.Linarith
import Mathlib.Tactic.Ring
import Mathlib.Tactic.FinCases
import Mathlib.Tactic.NormNum
import Mathlib.Data.List.Count

/-!
# C141: the result on a level does not depend on its decomposition into patches and tiles
-/

namespace Fub

variable {d w : ℕ} {S Φ : Type}

/-! ## Specification -/

/-- The split step on the whole level, an infinite (or periodically continued) grid: each cell is
updated with the fluxes of its two faces, each flux is computed from `w` cells on each side. -/
def levelSplitStep (s : SplitStep d w S Φ) (q : Cell d → S) : Cell d → S := fun c =>
  s.complete (s.update (q c)
    (s.flux fun k => q (Function.update c s.dir (c s.dir - w + k)))
    (s.flux fun k => q (Function.update c s.dir (c s.dir + 1 - w + k))))

/-- The split steps one after the other on the whole level. -/
def levelSteps (steps : List (SplitStep d w S Φ)) (q : Cell d → S) : Cell d → S :=
  steps.foldl (fun acc s => levelSplitStep s acc) q

/-- What AMReX guarantees for the tiles of a box: they cover it, are pairwise disjoint, lie in it, and
each tile contains an index of the inner box `core` (it is a tile of the inner box, grown). -/
structure IsTiling (tiles : List (PatchBox d)) (box core : PatchBox d) : Prop where
  cover : ∀ c, box.mem c → ∃ t ∈ tiles, t.mem c
  disjoint : tiles.Pairwise fun a b => ∀ c, ¬(a.mem c ∧ b.mem c)
  inside : ∀ t ∈ tiles, ∀ c, t.mem c → box.mem c
  core : ∀ t ∈ tiles, ∃ c, core.mem c ∧ t.mem c

/-- The run of a patch uses tilings of its faces and cells. -/
structure GoodRun (valid : PatchBox d) (G F : ℕ) (dir : Fin d) (r : SplitRun d Φ) : Prop where
  faces : IsTiling r.faceTiles (fluxBox valid G F dir) (fluxBox valid G F dir)
  cells : IsTiling r.cellTiles (scratchBox valid G) valid

/-! ## Range of the stencil -/

theorem shift_apply (c : Cell d) (dir : Fin d) (k : ℤ) (i : Fin d) :
    c.shift dir k i = if i = dir then c i + k else c i := by
  unfold Cell.shift
  by_cases h : i = dir
  · subst h; simp
  · simp [h]

theorem cellsAndFaces_bounds (v t : PatchBox d) (w : ℕ) (dir : Fin d) (i : Fin d) :
    (cellsAndFaces v t w dir).1.lo i = (if i = dir then max (v.lo i) (t.lo i - w) else max (v.lo i) (t.lo i)) ∧
    (cellsAndFaces v t w dir).1.hi i = (if i = dir then min (v.hi i) (t.hi i - 1 + w) else min (v.hi i) (t.hi i)) ∧
    (cellsAndFaces v t w dir).2.lo i = (if i = dir then max (t.lo i) (v.lo i + w) else max (v.lo i) (t.lo i)) ∧
    (cellsAndFaces v t w dir).2.hi i = (if i = dir then min (t.hi i) (v.hi i + 1 - w) else min (v.hi i) (t.hi i)) := by
  unfold cellsAndFaces PatchBox.inter PatchBox.grow PatchBox.enclosedCells PatchBox.surroundingFaces
  by_cases h : i = dir
  · subst h
    simp only [Pi.sup_apply, Pi.inf_apply, Function.update_self, if_true]
    refine ⟨trivial, trivial, ?_, ?_⟩ <;> omega
  · simp only [Pi.sup_apply, Pi.inf_apply, Function.update_of_ne h, if_neg h]
    refine ⟨trivial, trivial, ?_, ?_⟩ <;> omega

/-- **C141** The range of faces: a face of the tile is computed exactly if all cells of its stencil have
data; and the cells handed to the flux method contain all these stencils. -/
theorem stencil_range (v t : PatchBox d) (w : ℕ) (hw : 1 ≤ w) (dir : Fin d) (f : Cell d) :
    ((cellsAndFaces v t w dir).2.mem f ↔
      t.mem f ∧ ∀ k : ℤ, -w ≤ k → k < w → v.mem (f.shift dir k)) ∧
    ((cellsAndFaces v t w dir).2.mem f →
      ∀ k : ℤ, -w ≤ k → k < w → (cellsAndFaces v t w dir).1.mem (f.shift dir k)) := by
  have hb := cellsAndFaces_bounds v t w dir
  constructor
  · constructor
    · intro h
      refine ⟨fun i => ?_, fun k k1 k2 i => ?_⟩
      · have h1 := h i
        obtain ⟨-, -, b3, b4⟩ := hb i
        rw [b3, b4] at h1
        split_ifs at h1 <;> omega
      · have h1 := h i
        obtain ⟨-, -, b3, b4⟩ := hb i
        rw [b3, b4] at h1
        rw [shift_apply]
        split_ifs at h1 ⊢ <;> omega
    · rintro ⟨h1, h2⟩ i
      obtain ⟨-, -, b3, b4⟩ := hb i
      rw [b3, b4]
      have a := h1 i
      have b := h2 (-w) le_rfl (by omega) i
      have c := h2 (w - 1) (by omega) (by omega) i
      rw [shift_apply] at b c
      split_ifs at b c ⊢ <;> omega
  · intro h k k1 k2 i
    have h1 := h i
    obtain ⟨b1, b2, b3, b4⟩ := hb i
    rw [b3, b4] at h1
    rw [b1, b2, shift_apply]
    split_ifs at h1 ⊢ <;> omega

/-! ## One sweep -/

theorem stencilAt_eq (w : ℕ) (q : Cell d → S) (f : Cell d) (dir : Fin d) :
    stencilAt w q f dir = fun k : Fin (2 * w) => q (Function.update f dir (f dir - w + (k : ℤ))) := by
  funext k
  unfold stencilAt Cell.shift
  congr 2
  ring

/-- A fold of options whose steps are all defined. -/
theorem foldlM_some {α β : Type} (f : β → α → Option β) (g : β → α → β) (l : List α)
    (h : ∀ a ∈ l, ∀ b, f b a = some (g b a)) (b : β) : l.foldlM f b = some (l.foldl g b) := by
  induction l generalizing b with
  | nil => rfl
  | cons a l ih =>
    rw [List.foldlM_cons, h a (by simp) b]
    exact ih (fun a' h' => h a' (by simp [h'])) _

/-- **C141** The fluxes of a patch: with `stencil width + flux_gcw ≤ scratch_gcw` no view is out of
range and every face of the patch and its ghost layer is computed from the current states, whatever
the tiles are and whatever the fluxes were before. -/
theorem flux_sweep_all (valid : PatchBox d) (hw : 1 ≤ w) (G F : ℕ) (hG : w + F ≤ G)
    (flux : (Fin (2 * w) → S) → Φ) (dir : Fin d) (q : Cell d → S) (tiles : List (PatchBox d))
    (ht : IsTiling tiles (fluxBox valid G F dir) (fluxBox valid G F dir)) (old : Cell d → Φ) :
    ∃ φ, fluxSweep w flux dir (scratchBox valid G) q tiles old = some φ ∧
      ∀ f, φ f = if (fluxBox valid G F dir).mem f then
        flux (fun k => q (Function.update f dir (f dir - w + (k : ℤ)))) else old f := by
  have htile : ∀ t ∈ tiles, ∀ f, (cellsAndFaces (scratchBox valid G) t w dir).2.mem f ↔ t.mem f := by
    intro t h f
    rw [(stencil_range _ t w hw dir f).1]
    refine ⟨fun h => h.1, fun hf => ⟨hf, fun k k1 k2 i => ?_⟩⟩
    have hb := ht.inside t h f hf i
    rw [shift_apply]
    simp only [fluxBox, scratchBox] at hb ⊢
    split_ifs at hb ⊢ <;> omega
  have hok : ∀ t ∈ tiles, (cellsAndFaces (scratchBox valid G) t w dir).1.viewOk ∧
      (cellsAndFaces (scratchBox valid G) t w dir).2.viewOk ∧
      (cellsAndFaces (scratchBox valid G) t w dir).1.contains
        ((cellsAndFaces (scratchBox valid G) t w dir).2.growLoHi dir w (w - 1)) := by
    intro t h
    obtain ⟨c, -, hc⟩ := ht.core t h
    have hm := (htile t h c).2 hc
    refine ⟨fun i => ?_, fun i => ?_, fun i => ?_⟩
    · have a := (stencil_range _ t w hw dir c).2 hm 0 (by omega) (by omega) i
      omega
    · have := hm i
      omega
    · obtain ⟨b1, b2, b3, b4⟩ := cellsAndFaces_bounds (scratchBox valid G) t w dir i
      have a := hm i
      unfold PatchBox.growLoHi
      by_cases hi : i = dir
      · subst hi
        simp only [Function.update_self]
        rw [b1, b2, b3, b4]
        simp only [if_true]
        omega
      · simp only [Function.update_of_ne hi]
        rw [b1, b2, b3, b4]
        simp only [hi, if_false]
        omega
  have hsome := foldlM_some (fun acc t => fluxTile w flux dir (scratchBox valid G) q t acc)
    (fun acc t f => if t.mem f then flux (stencilAt w q f dir) else acc f) tiles (by
      intro t h acc
      unfold fluxTile
      dsimp only
      rw [if_pos (hok t h)]
      congr 1
      funext f
      simp only [htile t h f]) old
  refine ⟨_, hsome, fun f => ?_⟩
  have key : ∀ l : List (PatchBox d), ∀ acc : Cell d → Φ,
      l.foldl (fun acc t f => if t.mem f then flux (stencilAt w q f dir) else acc f) acc f =
        if ∃ t ∈ l, t.mem f then flux (stencilAt w q f dir) else acc f := by
    intro l
    induction l with
    | nil => intro acc; simp
    | cons t l ih =>
      intro acc
      rw [List.foldl_cons, ih]
      by_cases h1 : ∃ t ∈ l, t.mem f
      · have h2 : ∃ t' ∈ t :: l, t'.mem f := by
          obtain ⟨t', a, b⟩ := h1
          exact ⟨t', by simp [a], b⟩
        rw [if_pos h1, if_pos h2]
      · by_cases h3 : t.mem f
        · have h2 : ∃ t' ∈ t :: l, t'.mem f := ⟨t, by simp, h3⟩
          rw [if_neg h1, if_pos h3, if_pos h2]
        · have h2 : ¬ ∃ t' ∈ t :: l, t'.mem f := by
            rintro ⟨t', a, b⟩
            rcases List.mem_cons.1 a with rfl | a
            · exact h3 b
            · exact h1 ⟨t', a, b⟩
          rw [if_neg h1, if_neg h3, if_neg h2]
  rw [key, stencilAt_eq]
  have hiff : (∃ t ∈ tiles, t.mem f) ↔ (fluxBox valid G F dir).mem f :=
    ⟨fun ⟨t, a, b⟩ => ht.inside t a f b, ht.cover f⟩
  simp only [hiff]

/-- In place loops over disjoint tiles change each cell once. -/
theorem foldl_tiles_once {P : PatchBox d → Cell d → Prop} [∀ t c, Decidable (P t c)] (f : Cell d → S → S)
    (tiles : List (PatchBox d)) (hd : tiles.Pairwise fun a b => ∀ c, ¬(P a c ∧ P b c)) (q : Cell d → S) (c : Cell d) :
    tiles.foldl (fun acc t c => if P t c then f c (acc c) else acc c) q c =
      if ∃ t ∈ tiles, P t c then f c (q c) else q c := by
  induction tiles generalizing q with
  | nil => simp
  | cons t l ih =>
    rw [List.pairwise_cons] at hd
    rw [List.foldl_cons, ih hd.2]
    by_cases h1 : ∃ t' ∈ l, P t' c
    · obtain ⟨t', a, b⟩ := h1
      have hn : ¬ P t c := fun hp => hd.1 t' a c ⟨hp, b⟩
      have h2 : ∃ t'' ∈ t :: l, P t'' c := ⟨t', by simp [a], b⟩
      rw [if_pos ⟨t', a, b⟩, if_neg hn, if_pos h2]
    · by_cases h3 : P t c
      · have h2 : ∃ t' ∈ t :: l, P t' c := ⟨t, by simp, h3⟩
        rw [if_neg h1, if_pos h3, if_pos h2]
      · have h2 : ¬ ∃ t' ∈ t :: l, P t' c := by
          rintro ⟨t', a, b⟩
          rcases List.mem_cons.1 a with rfl | a
          · exact h3 b
          · exact h1 ⟨t', a, b⟩
        rw [if_neg h1, if_neg h3, if_neg h2]

theorem updateBox_mem (fb t : PatchBox d) (dir : Fin d) (c : Cell d) :
    (updateBox fb t dir).mem c ↔ t.mem c ∧ fb.mem c ∧ fb.mem (c.shift dir 1) := by
  unfold updateBox PatchBox.inter PatchBox.surroundingFaces PatchBox.enclosedCells
  constructor
  · intro h
    have h' : ∀ i, (t.lo i ≤ c i ∧ c i ≤ t.hi i) ∧ (fb.lo i ≤ c i ∧ c i ≤ fb.hi i) ∧
        (fb.lo i ≤ c.shift dir 1 i ∧ c.shift dir 1 i ≤ fb.hi i) := by
      intro i
      have hi := h i
      rw [shift_apply]
      by_cases e : i = dir
      · subst e
        simp only [Pi.sup_apply, Pi.inf_apply, Function.update_self] at hi
        simp only [if_true]
        omega
      · simp only [Pi.sup_apply, Pi.inf_apply, Function.update_of_ne e] at hi
        simp only [e, if_false]
        omega
    exact ⟨fun i => (h' i).1, fun i => (h' i).2.1, fun i => (h' i).2.2⟩
  · rintro ⟨h1, h2, h3⟩ i
    have a := h1 i
    have b := h2 i
    have e := h3 i
    rw [shift_apply] at e
    by_cases hi : i = dir
    · subst hi
      simp only [Pi.sup_apply, Pi.inf_apply, Function.update_self]
      simp only [if_true] at e
      omega
    · simp only [Pi.sup_apply, Pi.inf_apply, Function.update_of_ne hi]
      simp only [hi, if_false] at e
      omega

/-- **C141** One split step on a patch: no view is out of range, and a cell of the patch or its ghost
layer with both faces in the flux layer gets the new state computed from the fluxes of its two faces,
exactly once, for all tiles. -/
theorem patch_split_step (valid : PatchBox d) (hw : 1 ≤ w) (G F : ℕ) (hG : w + F ≤ G)
    (s : SplitStep d w S Φ) (r : SplitRun d Φ) (hr : GoodRun valid G F s.dir r) (q : Cell d → S) :
    ∃ q', patchSplitStep valid G F s r q = some q' ∧
      ∀ c, (scratchBox valid G).mem c → (fluxBox valid G F s.dir).mem c →
        (fluxBox valid G F s.dir).mem (c.shift s.dir 1) → q' c = levelSplitStep s q c := by
  obtain ⟨φ, hφ, hval⟩ := flux_sweep_all valid hw G F hG s.flux s.dir q r.faceTiles hr.faces r.oldFlux
  have hsome := foldlM_some (fun (acc : Cell d → S) t =>
      if (updateBox (fluxBox valid G F s.dir) t s.dir).viewOk then
        some fun c => if (updateBox (fluxBox valid G F s.dir) t s.dir).mem c then
          s.update (acc c) (φ c) (φ (c.shift s.dir 1)) else acc c
      else none)
    (fun acc t c => if (updateBox (fluxBox valid G F s.dir) t s.dir).mem c then
          s.update (acc c) (φ c) (φ (c.shift s.dir 1)) else acc c) r.cellTiles (by
      intro t h acc
      obtain ⟨c, hc, htc⟩ := hr.cells.core t h
      have hm : (updateBox (fluxBox valid G F s.dir) t s.dir).mem c := by
        rw [updateBox_mem]
        refine ⟨htc, fun i => ?_, fun i => ?_⟩
        · have := hc i
          simp only [fluxBox]
          split_ifs <;> omega
        · have := hc i
          rw [shift_apply]
          simp only [fluxBox]
          split_ifs <;> omega
      have hok : (updateBox (fluxBox valid G F s.dir) t s.dir).viewOk := fun i => by
        have := hm i
        omega
      rw [if_pos hok]) q
  refine ⟨_, by
    unfold patchSplitStep updateSweep
    rw [hφ]
    dsimp only [Option.bind_some]
    rw [hsome]
    rfl, ?_⟩
  intro c h1 h2 h3
  unfold completeSweep
  dsimp only
  rw [foldl_tiles_once (P := fun t c => t.mem c) (fun _ => s.complete) r.cellTiles hr.cells.disjoint]
  have hex : ∃ t ∈ r.cellTiles, t.mem c := hr.cells.cover c h1
  rw [if_pos hex]
  rw [foldl_tiles_once (P := fun t c => (updateBox (fluxBox valid G F s.dir) t s.dir).mem c)
    (fun c x => s.update x (φ c) (φ (c.shift s.dir 1))) r.cellTiles (hr.cells.disjoint.imp (by
      intro a b hab c ⟨x, y⟩
      exact hab c ⟨((updateBox_mem _ _ _ _).1 x).1, ((updateBox_mem _ _ _ _).1 y).1⟩))]
  have hex2 : ∃ t ∈ r.cellTiles, (updateBox (fluxBox valid G F s.dir) t s.dir).mem c := by
    obtain ⟨t, a, b⟩ := hex
    exact ⟨t, a, (updateBox_mem _ _ _ _).2 ⟨b, h2, h3⟩⟩
  rw [if_pos hex2, hval, hval, if_pos h2, if_pos h3]
  unfold levelSplitStep
  congr 4
  funext k
  congr 1
  unfold Cell.shift
  rw [Function.update_idem, Function.update_self]

/-! ## All split steps -/

/-- The cells of a patch and `r i` further cells in each direction. -/
def Near (valid : PatchBox d) (r : Fin d → ℤ) (c : Cell d) : Prop :=
  ∀ i, valid.lo i - r i ≤ c i ∧ c i ≤ valid.hi i + r i

theorem patch_steps_from (valid : PatchBox d) (hw : 1 ≤ w) (G F : ℕ) (hG : w + F ≤ G)
    (steps : List (SplitStep d w S Φ × SplitRun d Φ))
    (hr : ∀ s ∈ steps, GoodRun valid G F s.1.dir s.2)
    (rad : Fin d → ℤ) (hrad : ∀ i, rad i ≤ G)
    (hcount : ∀ i, ((steps.map (·.1.dir)).count i : ℤ) * w ≤ rad i)
    (hF : ∀ i, (((steps.map (·.1.dir)).count i - 1 : ℕ) : ℤ) * w ≤ F)
    (q p : Cell d → S) (hq : ∀ c, Near valid rad c → p c = q c) :
    ∃ p', patchSteps valid G F steps p = some p' ∧
      ∀ c, valid.mem c → p' c = levelSteps (steps.map (·.1)) q c := by
  induction steps generalizing rad q p with
  | nil =>
    refine ⟨p, rfl, fun c hc => hq c fun i => ?_⟩
    have h1 := hcount i
    simp only [List.map_nil, List.count_nil, Nat.cast_zero, zero_mul] at h1
    have := hc i
    omega
  | cons s l ih =>
    obtain ⟨p1, e1, h1⟩ := patch_split_step valid hw G F hG s.1 s.2 (hr s (by simp)) p
    set dir := s.1.dir with hdir
    set rad' : Fin d → ℤ := Function.update rad dir (min F (rad dir - w)) with hrad'
    have hstep : ∀ c, Near valid rad' c → p1 c = levelSplitStep s.1 q c := by
      intro c hc
      have hcd : valid.lo dir - min (F : ℤ) (rad dir - w) ≤ c dir ∧
          c dir ≤ valid.hi dir + min (F : ℤ) (rad dir - w) := by
        have := hc dir
        rwa [hrad', Function.update_self] at this
      have hco : ∀ i, i ≠ dir → valid.lo i - rad i ≤ c i ∧ c i ≤ valid.hi i + rad i := by
        intro i hi
        have := hc i
        rwa [hrad', Function.update_of_ne hi] at this
      rw [h1 c]
      · have hst : ∀ k : ℤ, -w ≤ k → k ≤ w → p (Function.update c dir (c dir + k)) =
            q (Function.update c dir (c dir + k)) := by
          intro k k1 k2
          apply hq
          intro i
          by_cases hi : i = dir
          · subst hi
            rw [Function.update_self]
            omega
          · rw [Function.update_of_ne hi]
            exact hco i hi
        unfold levelSplitStep
        have a0 : p c = q c := by
          have := hst 0 (by omega) (by omega)
          simpa using this
        have a1 : (fun k : Fin (2 * w) => p (Function.update c dir (c dir - w + (k : ℤ)))) =
            fun k : Fin (2 * w) => q (Function.update c dir (c dir - w + (k : ℤ))) := by
          funext k
          have hk := k.2
          have := hst (-w + (k : ℤ)) (by omega) (by omega)
          rwa [show c dir + (-(w : ℤ) + (k : ℤ)) = c dir - w + k by ring] at this
        have a2 : (fun k : Fin (2 * w) => p (Function.update c dir (c dir + 1 - w + (k : ℤ)))) =
            fun k : Fin (2 * w) => q (Function.update c dir (c dir + 1 - w + (k : ℤ))) := by
          funext k
          have hk := k.2
          have := hst (1 - w + (k : ℤ)) (by omega) (by omega)
          rwa [show c dir + (1 - (w : ℤ) + (k : ℤ)) = c dir + 1 - w + k by ring] at this
        rw [a0, a1, a2]
      · intro i
        simp only [scratchBox]
        have hg := hrad i
        by_cases hi : i = dir
        · subst hi
          omega
        · have := hco i hi
          omega
      · intro i
        simp only [fluxBox]
        have hg := hrad i
        by_cases hi : i = dir
        · subst hi
          simp only [if_true]
          omega
        · have := hco i hi
          simp only [hi, if_false]
          omega
      · intro i
        rw [shift_apply]
        simp only [fluxBox]
        have hg := hrad i
        by_cases hi : i = dir
        · subst hi
          simp only [if_true]
          omega
        · have := hco i hi
          simp only [hi, if_false]
          omega
    have hc' : ∀ i, ((l.map (·.1.dir)).count i : ℤ) * w ≤ rad' i := by
      intro i
      have a := hcount i
      have b := hF i
      rw [List.map_cons, List.count_cons] at a b
      by_cases hi : i = dir
      · subst hi
        rw [hrad', Function.update_self]
        simp only [hdir, beq_self_eq_true, if_true, Nat.add_sub_cancel] at a b ⊢
        push_cast at a
        apply le_min
        · linarith
        · nlinarith
      · rw [hrad', Function.update_of_ne hi]
        have hb : (s.1.dir == i) = false := by
          rw [beq_eq_false_iff_ne]
          exact fun h => hi h.symm
        simpa [hb] using a
    have hF' : ∀ i, (((l.map (·.1.dir)).count i - 1 : ℕ) : ℤ) * w ≤ F := by
      intro i
      have b := hF i
      rw [List.map_cons, List.count_cons] at b
      refine le_trans (mul_le_mul_of_nonneg_right ?_ (by omega)) b
      have : (l.map (·.1.dir)).count i - 1 ≤ (l.map (·.1.dir)).count i + (if (s.1.dir == i) = true then 1 else 0) - 1 := by
        split_ifs <;> omega
      exact_mod_cast this
    have hrad'' : ∀ i, rad' i ≤ G := by
      intro i
      by_cases hi : i = dir
      · subst hi
        rw [hrad', Function.update_self]
        have := hrad dir
        omega
      · rw [hrad', Function.update_of_ne hi]
        exact hrad i
    obtain ⟨p', e', h'⟩ := ih (fun s' h => hr s' (by simp [h])) rad' hrad'' hc' hF' (levelSplitStep s.1 q) p1 hstep
    refine ⟨p', ?_, h'⟩
    unfold patchSteps at e' ⊢
    rw [List.foldlM_cons, e1]
    exact e'

/-- **C141** The result on a patch is the result on the whole level: if the ghost cells hold the states
of the level at the beginning, and no direction is stepped more often than the flux layer allows, then
after all split steps (without exchange of ghost cells between them) every cell of the patch has the
state it has if the steps are made on the whole level at once. No view is out of range. This holds for
all numerical methods with this stencil, all tilings and all contents of the flux arrays. -/
theorem patch_steps_level (valid : PatchBox d) (hw : 1 ≤ w) (G F : ℕ) (hG : w + F ≤ G)
    (steps : List (SplitStep d w S Φ × SplitRun d Φ))
    (hr : ∀ s ∈ steps, GoodRun valid G F s.1.dir s.2)
    (hF : ∀ i, ((steps.map (·.1.dir)).count i - 1) * w ≤ F)
    (q p : Cell d → S) (hq : ∀ c, (scratchBox valid G).mem c → p c = q c) :
    ∃ p', patchSteps valid G F steps p = some p' ∧
      ∀ c, valid.mem c → p' c = levelSteps (steps.map (·.1)) q c := by
  refine patch_steps_from valid hw G F hG steps hr (fun _ => G) (fun _ => le_rfl) ?_ ?_ q p
    (fun c hc => hq c fun i => hc i)
  · intro i
    have h1 := hF i
    set n := (steps.map (·.1.dir)).count i
    have h2 : n * w ≤ G := by
      rcases Nat.eq_zero_or_pos n with h | h
      · rw [h]; omega
      · have : n * w = (n - 1) * w + w := by
          rw [← Nat.succ_mul]
          congr 1
          omega
        omega
    exact_mod_cast h2
  · intro i
    exact_mod_cast hF i

/-- **C141** Two decompositions of a level give the same states: a cell which belongs to the patch `a`
of one decomposition and to the patch `b` of another one has the same state after the split steps. In
particular patches next to each other use the same fluxes at their common faces. -/
theorem decomposition_independent (a b : PatchBox d) (hw : 1 ≤ w) (G F : ℕ) (hG : w + F ≤ G)
    (stepsA stepsB : List (SplitStep d w S Φ × SplitRun d Φ))
    (hsame : stepsA.map (·.1) = stepsB.map (·.1))
    (ha : ∀ s ∈ stepsA, GoodRun a G F s.1.dir s.2) (hb : ∀ s ∈ stepsB, GoodRun b G F s.1.dir s.2)
    (hF : ∀ i, ((stepsA.map (·.1.dir)).count i - 1) * w ≤ F)
    (q p p2 : Cell d → S) (hp : ∀ c, (scratchBox a G).mem c → p c = q c)
    (hp2 : ∀ c, (scratchBox b G).mem c → p2 c = q c) (c : Cell d) (hca : a.mem c) (hcb : b.mem c) :
    ∃ x y, patchSteps a G F stepsA p = some x ∧ patchSteps b G F stepsB p2 = some y ∧ x c = y c := by
  have hmap : stepsA.map (·.1.dir) = stepsB.map (·.1.dir) := by
    have := congrArg (List.map (·.dir)) hsame
    simpa [List.map_map, Function.comp_def] using this
  obtain ⟨x, ex, hx⟩ := patch_steps_level a hw G F hG stepsA ha hF q p hp
  obtain ⟨y, ey, hy⟩ := patch_steps_level b hw G F hG stepsB hb (by rw [← hmap]; exact hF) q p2 hp2
  exact ⟨x, y, ex, ey, by rw [hx c hca, hy c hcb, hsame]⟩

/-- **C141** The default options `scratch_gcw = 4`, `flux_gcw = 2` suffice for all methods with a stencil
of one or two cells on each side and all splittings which step each direction at most twice (Godunov
and Strang splitting in all dimensions). -/
theorem default_ghost_cells (valid : PatchBox d) (hw : 1 ≤ w) (hw2 : w ≤ 2)
    (steps : List (SplitStep d w S Φ × SplitRun d Φ))
    (hr : ∀ s ∈ steps, GoodRun valid 4 2 s.1.dir s.2)
    (h2 : ∀ i, (steps.map (·.1.dir)).count i ≤ 2)
    (q p : Cell d → S) (hq : ∀ c, (scratchBox valid 4).mem c → p c = q c) :
    ∃ p', patchSteps valid 4 2 steps p = some p' ∧
      ∀ c, valid.mem c → p' c = levelSteps (steps.map (·.1)) q c := by
  refine patch_steps_level valid hw 4 2 (by omega) steps hr ?_ q p hq
  intro i
  have := h2 i
  calc ((steps.map (·.1.dir)).count i - 1) * w ≤ 1 * w := Nat.mul_le_mul_right _ (by omega)
    _ ≤ 2 := by omega

/-! ## Too few ghost cells -/

/-- Upwind transport by one cell, in one dimension, with a stencil of one cell. -/
def transportStep : SplitStep 1 1 ℤ ℤ := ⟨0, fun s => s 0, fun _ l _ => l, id⟩

/-- The patch that consists of the cell 0. -/
def onePatch : PatchBox 1 := ⟨fun _ => 0, fun _ => 0⟩

/-- One tile for the faces, one for the cells. -/
def oneRun (G F : ℕ) : SplitRun 1 ℤ := ⟨[fluxBox onePatch G F 0], [scratchBox onePatch G], fun _ => 0⟩

theorem oneRun_good (G F : ℕ) : GoodRun onePatch G F 0 (oneRun G F) := by
  refine ⟨⟨fun c h => ⟨_, List.mem_singleton.2 rfl, h⟩, List.pairwise_singleton _ _, ?_, ?_⟩,
    ⟨fun c h => ⟨_, List.mem_singleton.2 rfl, h⟩, List.pairwise_singleton _ _, ?_, ?_⟩⟩
  · intro t ht c hc
    rw [List.mem_singleton.1 ht] at hc
    exact hc
  · intro t ht
    rw [List.mem_singleton.1 ht]
    have : (fluxBox onePatch G F 0).mem (fun _ => 0) := by
      intro i
      simp only [fluxBox, onePatch]
      split_ifs <;> omega
    exact ⟨_, this, this⟩
  · intro t ht c hc
    rw [List.mem_singleton.1 ht] at hc
    exact hc
  · intro t ht
    rw [List.mem_singleton.1 ht]
    refine ⟨fun _ => 0, fun i => ⟨le_rfl, le_rfl⟩, fun i => ?_⟩
    simp only [scratchBox, onePatch]
    omega

/-- **C141** The bound is sharp: without flux layer (`flux_gcw = 0`) a second step in the same direction
uses states at the border of the patch which lag behind: the cell gets the state of its neighbour
instead of that of the neighbour's neighbour. -/
theorem too_few_ghost_cells : ∃ p', patchSteps onePatch 1 0
      [(transportStep, oneRun 1 0), (transportStep, oneRun 1 0)] (fun c => c 0) = some p' ∧
    p' (fun _ => 0) = -1 ∧
    levelSteps [transportStep, transportStep] (fun c => c 0) (fun _ => 0) = -2 := by
  refine ⟨_, rfl, ?_, ?_⟩
  · decide +kernel
  · decide +kernel

/-- An operator of a splitting method that only records its number. -/
def recordOp (n : ℕ) : Op ℚ (List ℕ) Unit := fun _ log => (log ++ [n], none)

/-- **C141** How often Strang splitting steps a direction without exchange of ghost cells in between.
Twice in two dimensions; but four times in three dimensions (type-erased method, see `anySplit3`), and
four times in two dimensions if a source term is split by Strang splitting again. -/
theorem strang_direction_counts (dt : ℚ) :
    (advanceRec strangSplit [recordOp 0, recordOp 1] dt []).1 = [0, 1, 1, 0] ∧
    (advanceRec strangSplit [recordOp 0, recordOp 1, recordOp 2] dt []).1 = [0, 1, 2, 2, 1, 1, 2, 2, 1, 0] ∧
    (advanceSystemSource strangSplit (recordOp 9) (fun dt => advanceRec strangSplit [recordOp 0, recordOp 1] dt)
      dt []).1 = [9, 0, 1, 1, 0, 0, 1, 1, 0, 9] := ⟨rfl, rfl, rfl⟩

/-- **C141** Four steps in each direction need three stencil widths of fluxes and four of states, the
numbers some of the examples choose. -/
theorem nested_strang_ghost_cells (valid : PatchBox d) (hw : 1 ≤ w)
    (steps : List (SplitStep d w S Φ × SplitRun d Φ))
    (hr : ∀ s ∈ steps, GoodRun valid (4 * w) (3 * w) s.1.dir s.2)
    (h4 : ∀ i, (steps.map (·.1.dir)).count i ≤ 4)
    (q p : Cell d → S) (hq : ∀ c, (scratchBox valid (4 * w)).mem c → p c = q c) :
    ∃ p', patchSteps valid (4 * w) (3 * w) steps p = some p' ∧
      ∀ c, valid.mem c → p' c = levelSteps (steps.map (·.1)) q c := by
  refine patch_steps_level valid hw (4 * w) (3 * w) (by omega) steps hr ?_ q p hq
  intro i
  have := h4 i
  exact Nat.mul_le_mul_right _ (by omega)

/-- Upwind transport in `x`, nothing in `y`. -/
def transport2 (dir : Fin 2) : SplitStep 2 1 ℤ ℤ :=
  ⟨dir, fun s => s 0, fun q l _ => if dir = 0 then l else q, id⟩

/-- The patch that consists of the cell `(0, 0)`. -/
def onePatch2 : PatchBox 2 := ⟨fun _ => 0, fun _ => 0⟩

/-- One tile for the faces, one for the cells. -/
def oneRun2 (G F : ℕ) (dir : Fin 2) : SplitRun 2 ℤ :=
  ⟨[fluxBox onePatch2 G F dir], [scratchBox onePatch2 G], fun _ => 0⟩

/-- **C141** With the default options Strang splitting of a source term around Strang splitting in two
dimensions makes the result depend on the patches, even for a stencil of one cell. -/
theorem default_ghost_cells_source :
    ∃ p', patchSteps onePatch2 4 2
      ([0, 1, 1, 0, 0, 1, 1, 0].map fun dir => (transport2 dir, oneRun2 4 2 dir)) (fun c => c 0) = some p' ∧
    p' (fun _ => 0) = -3 ∧
    levelSteps ([0, 1, 1, 0, 0, 1, 1, 0].map transport2) (fun c => c 0) (fun _ => 0) = -4 := by
  refine ⟨_, rfl, ?_, ?_⟩
  · decide +kernel
  · decide +kernel

/-- The hypotheses are met: Strang splitting with the default options in one dimension. -/
example : ∃ p', patchSteps onePatch 4 2 [(transportStep, oneRun 4 2), (transportStep, oneRun 4 2)]
      (fun c => c 0) = some p' ∧ p' (fun _ => 0) = -2 := by
  obtain ⟨p', e, h⟩ := default_ghost_cells (w := 1) onePatch le_rfl (by norm_num)
    [(transportStep, oneRun 4 2), (transportStep, oneRun 4 2)]
    (by intro s hs; simp at hs; subst hs; exact oneRun_good 4 2)
    (by intro i; fin_cases i; decide) (fun c => c 0) (fun c => c 0) (fun _ _ => rfl)
  exact ⟨p', e, by rw [h (fun _ => 0) (fun i => ⟨le_rfl, le_rfl⟩)]; decide +kernel⟩

/-- Tilings with several tiles exist: the patch of the cells 0 and 1, its faces in three tiles and its
cells in two. -/
example : GoodRun (d := 1) (Φ := ℤ) ⟨fun _ => 0, fun _ => 1⟩ 4 2 0
    ⟨[⟨fun _ => 2, fun _ => 4⟩, ⟨fun _ => -2, fun _ => 0⟩, ⟨fun _ => 1, fun _ => 1⟩],
     [⟨fun _ => 1, fun _ => 5⟩, ⟨fun _ => -4, fun _ => 0⟩], fun _ => 7⟩ := by
  refine ⟨⟨?_, ?_, ?_, ?_⟩, ⟨?_, ?_, ?_, ?_⟩⟩
  · intro c h
    have := h 0
    simp only [fluxBox, if_true] at this
    by_cases h1 : 2 ≤ c 0
    · exact ⟨_, List.mem_cons_self, fun i => by fin_cases i; exact ⟨h1, by simp; omega⟩⟩
    · by_cases h2 : 1 ≤ c 0
      · exact ⟨_, List.mem_cons_of_mem _ (List.mem_cons_of_mem _ (List.mem_singleton.2 rfl)),
          fun i => by fin_cases i; exact ⟨h2, by simp; omega⟩⟩
      · exact ⟨_, List.mem_cons_of_mem _ (List.mem_cons_self),
          fun i => by fin_cases i; exact ⟨by simp; omega, by simp; omega⟩⟩
  · simp only [List.pairwise_cons, List.mem_cons, List.not_mem_nil, or_false, forall_eq_or_imp, forall_eq,
      List.Pairwise.nil, and_true, IsEmpty.forall_iff, implies_true]
    refine ⟨⟨?_, ?_⟩, ?_⟩ <;> (rintro c ⟨a, b⟩; have := a 0; have := b 0; simp at *; omega)
  · intro t ht c hc i
    have := hc i
    simp only [List.mem_cons, List.not_mem_nil, or_false] at ht
    fin_cases i
    simp only [fluxBox]
    rcases ht with rfl | rfl | rfl <;> simp at * <;> omega
  · intro t ht
    simp only [List.mem_cons, List.not_mem_nil, or_false] at ht
    rcases ht with rfl | rfl | rfl
    · exact ⟨fun _ => 2, by decide, by decide⟩
    · exact ⟨fun _ => 0, by decide, by decide⟩
    · exact ⟨fun _ => 1, by decide, by decide⟩
  · intro c h
    have := h 0
    simp only [scratchBox] at this
    by_cases h1 : 1 ≤ c 0
    · exact ⟨_, List.mem_cons_self, fun i => by fin_cases i; exact ⟨h1, by simp; omega⟩⟩
    · exact ⟨_, List.mem_cons_of_mem _ (List.mem_cons_self),
          fun i => by fin_cases i; exact ⟨by simp; omega, by simp; omega⟩⟩
  · simp only [List.pairwise_cons, List.mem_cons, List.not_mem_nil, or_false, forall_eq,
      List.Pairwise.nil, and_true, IsEmpty.forall_iff, implies_true]
    rintro c ⟨a, b⟩; have := a 0; have := b 0; simp at *; omega
  · intro t ht c hc i
    have := hc i
    simp only [List.mem_cons, List.not_mem_nil, or_false] at ht
    fin_cases i
    simp only [scratchBox]
    rcases ht with rfl | rfl <;> simp at * <;> omega
  · intro t ht
    simp only [List.mem_cons, List.not_mem_nil, or_false] at ht
    rcases ht with rfl | rfl
    · exact ⟨fun _ => 1, by decide, by decide⟩
    · exact ⟨fun _ => 0, by decide, by decide⟩

end Fub
