import Verif.Lemmas.Amr
import Verif.Props.LevelIntegrator
import Mathlib.Algebra.BigOperators.Fin
import Mathlib.Algebra.BigOperators.Intervals

/-!
C17: conservation on adaptively refined hierarchies.
-/

namespace Fub
open Finset
variable {n : Nat} {K X : Type} [Field K]

/-! ### Bookkeeping quantities -/

/-- Integral over the uncovered cells of a level. -/
def levelMass (g : Grids n) (dx : Nat → Fin n → K) (l : Nat) (s : AmrState n K X) : K := cellVolume dx l * ∑ i ∈ g.valid l, s.u l i

/-- Net content of the flux register of a level, as seen from the coarse side. -/
def regSum (g : Grids n) : Nat → AmrState n K X → K
  | 0, _ => 0
  | l + 1, s => ∑ d, flowInto d (g.valid l) (· ∈ g.covered l) (s.reg (l + 1) d)

/-- Total flow through the domain boundary. -/
def inflow (g : Grids n) (dx : Nat → Fin n → K) (s : AmrState n K X) : K := (s.log.map (boundaryInflow g dx)).sum

/-- What the operations on level `l` preserve. -/
structure LevelInv (g : Grids n) (dx : Nat → Fin n → K) (l : Nat) (s s' : AmrState n K X) : Prop where
  total : levelMass g dx l s' + regSum g l s' + regSum g (l + 1) s' - inflow g dx s' =
    levelMass g dx l s + regSum g l s + regSum g (l + 1) s - inflow g dx s
  others : ∀ k, k ≠ l → levelMass g dx k s' = levelMass g dx k s
  regs : ∀ k, k ≠ l → k ≠ l + 1 → regSum g k s' = regSum g k s

theorem LevelInv.refl (g : Grids n) (dx : Nat → Fin n → K) (l : Nat) (s : AmrState n K X) : LevelInv g dx l s s :=
  ⟨rfl, fun _ _ => rfl, fun _ _ _ => rfl⟩

theorem LevelInv.trans {g : Grids n} {dx : Nat → Fin n → K} {l : Nat} {a b c : AmrState n K X} (h1 : LevelInv g dx l a b)
    (h2 : LevelInv g dx l b c) : LevelInv g dx l a c :=
  ⟨h2.total.trans h1.total, fun k hk => (h2.others k hk).trans (h1.others k hk),
    fun k hk hk' => (h2.regs k hk hk').trans (h1.regs k hk hk')⟩

theorem valid_mem {g : Grids n} {l : Nat} {i : Index n} : i ∈ g.valid l ↔ i ∈ g.cells l ∧ i ∉ g.covered l := by
  simp [Grids.valid]

theorem keeps_mass {g : Grids n} {f : AmrState n K X → AmrState n K X} (hf : Keeps g f) (dx : Nat → Fin n → K) (s : AmrState n K X) :
    (∀ l, levelMass g dx l (f s) = levelMass g dx l s) ∧ (∀ l, regSum g l (f s) = regSum g l s) ∧ inflow g dx (f s) = inflow g dx s := by
  obtain ⟨h1, h2, h3⟩ := hf s
  refine ⟨fun l => ?_, fun l => ?_, by rw [inflow, h2]; rfl⟩
  · rw [levelMass, levelMass]
    exact congrArg _ (sum_congr rfl fun i hi => h3 l i (valid_mem.1 hi).1)
  · cases l with
    | zero => rfl
    | succ l => rw [regSum, regSum, h1]

theorem keeps_inv {g : Grids n} {f : AmrState n K X → AmrState n K X} (hf : Keeps g f) (dx : Nat → Fin n → K) (l : Nat) (s : AmrState n K X) :
    LevelInv g dx l s (f s) := by
  obtain ⟨h1, h2, h3⟩ := keeps_mass hf dx s
  exact ⟨by rw [h1, h2, h2, h3], fun k _ => h1 k, fun k _ _ => h2 k⟩

/-! ### One split step -/

theorem valid_flow (g : Grids n) (hg : g.Nested) (l : Nat) (d : Fin n) (F : Index n → K) :
    ∑ i ∈ g.valid l, (F i - F (shift i d 1)) =
      flowInto d (g.valid l) (fun i => ¬ i ∈ g.domain l) F + flowInto d (g.valid l) (· ∈ g.covered l) F +
        flowInto d (g.valid l) (· ∈ g.domain l \ g.cells l) F := by
  rw [flowInto_all, flowInto_split d (g.valid l) _ (fun i => ¬ i ∈ g.domain l ∨ i ∈ g.covered l) (· ∈ g.domain l \ g.cells l),
    flowInto_split d (g.valid l) (fun i => ¬ i ∈ g.domain l ∨ i ∈ g.covered l) (fun i => ¬ i ∈ g.domain l) (· ∈ g.covered l)]
  · intro i _ s _
    refine ⟨Iff.rfl, ?_⟩
    rintro ⟨h1, h2⟩
    exact h1 (hg.cells_sub l (hg.covered_sub l h2))
  · intro i _ s _
    rw [valid_mem, mem_sdiff]
    have h1 : shift i d s ∈ g.cells l → shift i d s ∈ g.domain l := fun h => hg.cells_sub l h
    have h2 : shift i d s ∈ g.covered l → shift i d s ∈ g.cells l := fun h => hg.covered_sub l h
    tauto

theorem fine_flow (g : Grids n) (hg : g.Nested) (l : Nat) (hl : l + 1 < g.levels) (d : Fin n) (F : Index n → K) :
    flowInto d (g.valid l) (· ∈ g.covered l) (fun j => ∑ i ∈ fineFaces (g.ratio (l + 1)) d j, F i) =
      -flowInto d (g.valid (l + 1)) (· ∈ g.domain (l + 1) \ g.cells (l + 1)) F := by
  have hback : ∀ i : Index n, ∀ s : Int, s = 1 ∨ s = -1 → shift (shift i d s) d (-s) = i := by
    intro i s _; exact (shift_spec i d s).2.2.2.1
  rw [← flowInto_mono d (g.valid l) (g.domain l \ g.covered l), flowInto_fine (g.ratio (l + 1)) (hg.ratio_pos _) d
    (g.domain l \ g.covered l) (g.covered l) (g.domain (l + 1) \ g.cells (l + 1)) (g.cells (l + 1)), flowInto_antisymm,
    flowInto_mono d (g.valid (l + 1)) (g.cells (l + 1))]
  · intro i hi; exact (valid_mem.1 hi).1
  · intro i hi hn s hs
    rw [valid_mem] at hn
    have hc : i ∈ g.covered (l + 1) := by tauto
    have hb := hg.buffer (l + 1) i hc d
    rw [mem_sdiff]
    rcases hs with rfl | rfl
    · exact fun h => h.2 (hb.1 h.1)
    · exact fun h => h.2 (hb.2 h.1)
  · intro i hi; rw [mem_sdiff] at hi; exact hi.2
  · intro i; rw [mem_sdiff, mem_sdiff, hg.refine l hl, hg.refine_domain l hl]
  · intro i; rw [hg.refine l hl]
  · intro i hi; rw [valid_mem] at hi; rw [mem_sdiff]; exact ⟨hg.cells_sub l hi.1, hi.2⟩
  · intro i hi hn s hs hc
    rw [mem_sdiff] at hi
    rw [valid_mem] at hn
    have hb := hg.buffer l _ hc d
    have hi' := hback i s hs
    have : i ∈ g.cells l := by
      rcases hs with rfl | rfl
      · have := hb.2; rw [hi'] at this; exact this hi.1
      · have := hb.1; rw [show (-(-1) : Int) = 1 by norm_num] at hi'; rw [hi'] at this; exact this hi.1
    exact hn ⟨this, hi.2⟩

theorem weight_eq (dx : Nat → Fin n → K) (l : Nat) (d : Fin n) (h : dx l d ≠ 0) (dt : K) :
    faceWeight dx l d dt = (∏ e ∈ univ.erase d, dx l e) * dt := by
  rw [faceWeight, cellVolume, ← mul_prod_erase univ _ (mem_univ d)]
  field_simp

theorem step_inv (g : Grids n) (hg : g.Nested) (dx : Nat → Fin n → K) (hdx : ∀ l d, dx l d ≠ 0) (l : Nat) (hl : l < g.levels)
    (dt : K) (d : Fin n) (f : AmrState n K X → AmrState n K X) (hf : Keeps g f) (hflux : ∀ s, (f s).flux = s.flux) (s : AmrState n K X) :
    LevelInv g dx l s (amrAccumulate g dx l dt d (f (amrUpdate g dx l dt d s))) := by
  obtain ⟨k1, k2, k3⟩ := hf (amrUpdate g dx l dt d s)
  have hF : (f (amrUpdate g dx l dt d s)).flux = s.flux := hflux _
  set s1 := f (amrUpdate g dx l dt d s) with hs1
  set F := s.flux l d with hFdef
  have hreg1 : s1.reg = s.reg := k1
  have hW := weight_eq dx l d (hdx l d) dt
  set W := faceWeight dx l d dt with hWdef
  -- mass
  have hm : levelMass g dx l (amrAccumulate g dx l dt d s1) = levelMass g dx l s + W * ∑ i ∈ g.valid l, (F i - F (shift i d 1)) := by
    have : ∀ i ∈ g.valid l, s1.u l i = s.u l i + dt / dx l d * (F i - F (shift i d 1)) := by
      intro i hi
      rw [k3 l i (valid_mem.1 hi).1]
      simp [amrUpdate, (valid_mem.1 hi).1, hFdef]
    show cellVolume dx l * ∑ i ∈ g.valid l, s1.u l i = _
    rw [sum_congr rfl this, sum_add_distrib, ← mul_sum, levelMass, hWdef, faceWeight]
    ring
  have hmo : ∀ k, k ≠ l → levelMass g dx k (amrAccumulate g dx l dt d s1) = levelMass g dx k s := by
    intro k hk
    show cellVolume dx k * ∑ i ∈ g.valid k, s1.u k i = _
    rw [levelMass]
    refine congrArg _ (sum_congr rfl fun i hi => ?_)
    rw [k3 k i (valid_mem.1 hi).1]
    simp [amrUpdate, hk]
  -- log
  have hin : inflow g dx (amrAccumulate g dx l dt d s1) = inflow g dx s + W * flowInto d (g.valid l) (fun i => ¬ i ∈ g.domain l) F := by
    show (s1.log.map _).sum = _
    rw [k2]
    simp only [amrUpdate, List.map_append, List.sum_append, List.map_cons, List.map_nil, List.sum_cons, List.sum_nil, add_zero]
    rw [boundaryInflow, inflow, hW]
    rfl
  -- registers
  have hsum : ∀ (G H : Fin n → Index n → K) (U C : Finset (Index n)) (c : K) (f : Index n → K),
      (∀ e, G e = if e = d then (fun i => H e i + c * f i) else H e) →
      ∑ e, flowInto e U (· ∈ C) (G e) = ∑ e, flowInto e U (· ∈ C) (H e) + c * flowInto d U (· ∈ C) f := by
    intro G H U C c f hG
    have : ∀ e, flowInto e U (· ∈ C) (G e) = flowInto e U (· ∈ C) (H e) + if e = d then c * flowInto d U (· ∈ C) f else 0 := by
      intro e
      rw [hG e]
      by_cases he : e = d
      · subst he; simp only [if_true]; rw [flowInto_add]
      · simp [he]
    rw [sum_congr rfl fun e _ => this e, sum_add_distrib, sum_ite_eq' univ d]
    simp
  have hup : regSum g (l + 1) (amrAccumulate g dx l dt d s1) = regSum g (l + 1) s - W * flowInto d (g.valid l) (· ∈ g.covered l) F := by
    by_cases hx : l + 1 < g.levels
    · rw [regSum, regSum, hsum _ (s.reg (l + 1)) _ _ (-W) F]
      · ring
      · intro e
        funext j
        simp only [amrAccumulate, if_pos hx, crseAdd, hF, hreg1]
        by_cases he : e = d
        · subst he
          simp only [and_self, if_true]
          split
          · simp [fineAdd, hWdef, hFdef]
          · simp [hWdef, hFdef]
        · simp only [he, and_false, if_false]
          split
          · simp [fineAdd]
          · rfl
    · have hc := hg.finest l (by omega)
      simp [regSum, hc, flowInto]
  have hdown : regSum g l (amrAccumulate g dx l dt d s1) = regSum g l s - W * flowInto d (g.valid l) (· ∈ g.domain l \ g.cells l) F := by
    cases l with
    | zero =>
      have : g.domain 0 \ g.cells 0 = ∅ := by rw [hg.base]; exact Finset.sdiff_self _
      simp [regSum, this, flowInto]
    | succ l =>
      have h1 := fine_flow g hg l hl d F
      rw [regSum, regSum, hsum _ (s.reg (l + 1)) _ _ W (fun j => ∑ i ∈ fineFaces (g.ratio (l + 1)) d j, F i)]
      · rw [h1]; ring
      · intro e
        funext j
        simp only [amrAccumulate, Nat.zero_lt_succ, if_true, hF, hreg1]
        have hcr : ∀ (c : K) (r : Nat → Fin n → Index n → K), crseAdd (l + 1 + 1) d (s.flux (l + 1) d) c r (l + 1) e j = r (l + 1) e j := by
          intro c r; simp [crseAdd]
        have : (if l + 1 + 1 < g.levels then crseAdd (l + 1 + 1) d (s.flux (l + 1) d) (-faceWeight dx (l + 1) d dt)
            (fineAdd (g.ratio (l + 1)) (l + 1) d (s.flux (l + 1) d) (faceWeight dx (l + 1) d dt) s.reg) else
            fineAdd (g.ratio (l + 1)) (l + 1) d (s.flux (l + 1) d) (faceWeight dx (l + 1) d dt) s.reg) (l + 1) e j =
            fineAdd (g.ratio (l + 1)) (l + 1) d (s.flux (l + 1) d) (faceWeight dx (l + 1) d dt) s.reg (l + 1) e j := by
          split
          · rw [hcr]
          · rfl
        rw [this, fineAdd]
        by_cases he : e = d
        · subst he; simp [hWdef, hFdef]
        · simp [he]
  have hother : ∀ k, k ≠ l → k ≠ l + 1 → regSum g k (amrAccumulate g dx l dt d s1) = regSum g k s := by
    intro k hk hk'
    cases k with
    | zero => rfl
    | succ k =>
      rw [regSum, regSum]
      refine sum_congr rfl fun e _ => congrArg _ ?_
      funext j
      simp only [amrAccumulate, hreg1]
      split <;> split <;> simp [crseAdd, fineAdd, hk, hk'] <;> omega
  refine ⟨?_, hmo, hother⟩
  rw [hm, hin, hup, hdown, valid_flow g hg l d F]
  ring

/-! ### Flux correction -/

theorem refluxDir_mass (g : Grids n) (dx : Nat → Fin n → K) (hdx : ∀ l d, dx l d ≠ 0) (l : Nat) (s : AmrState n K X) (d : Fin n) :
    levelMass g dx l (amrRefluxDir g dx (l + 1) l s d) = levelMass g dx l s + flowInto d (g.valid l) (· ∈ g.covered l) (s.reg (l + 1) d) := by
  have hV : cellVolume dx l ≠ 0 := prod_ne_zero_iff.2 fun d _ => hdx l d
  have : ∀ i ∈ g.valid l, (amrRefluxDir g dx (l + 1) l s d).u l i = s.u l i +
      (if shift i d (-1) ∈ g.covered l then s.reg (l + 1) d i / cellVolume dx l else 0)
          - (if shift i d 1 ∈ g.covered l then s.reg (l + 1) d (shift i d 1) / cellVolume dx l else 0) := by
    intro i hi
    rw [valid_mem] at hi
    simp [amrRefluxDir, hi.1, hi.2]
  rw [levelMass, sum_congr rfl this, sum_sub_distrib, sum_add_distrib, ← sum_filter, ← sum_filter, ← sum_div, ← sum_div, levelMass, flowInto]
  field_simp
  ring

theorem correct_spec (g : Grids n) (dx : Nat → Fin n → K) (hdx : ∀ l d, dx l d ≠ 0) (l : Nat) (s : AmrState n K X) :
    levelMass g dx l (amrCorrect g dx (l + 1) l s) = levelMass g dx l s + regSum g (l + 1) s ∧
    (amrCorrect g dx (l + 1) l s).reg = s.reg ∧ (amrCorrect g dx (l + 1) l s).log = s.log ∧
    ∀ k, k ≠ l → (amrCorrect g dx (l + 1) l s).u k = s.u k := by
  have main : ∀ (L : List (Fin n)) (s : AmrState n K X),
      levelMass g dx l (L.foldl (amrRefluxDir g dx (l + 1) l) s) = levelMass g dx l s +
        (L.map fun d => flowInto d (g.valid l) (· ∈ g.covered l) (s.reg (l + 1) d)).sum ∧
      (L.foldl (amrRefluxDir g dx (l + 1) l) s).reg = s.reg ∧ (L.foldl (amrRefluxDir g dx (l + 1) l) s).log = s.log ∧
      ∀ k, k ≠ l → (L.foldl (amrRefluxDir g dx (l + 1) l) s).u k = s.u k := by
    intro L
    induction L with
    | nil => intro s; simp
    | cons d L ih =>
      intro s
      obtain ⟨h1, h2, h3, h4⟩ := ih (amrRefluxDir g dx (l + 1) l s d)
      refine ⟨?_, h2, h3, fun k hk => (h4 k hk).trans ?_⟩
      · rw [List.foldl_cons, h1, refluxDir_mass g dx hdx, List.map_cons, List.sum_cons, add_assoc]
        rfl
      · funext i; simp [amrRefluxDir, hk]
  have := main (List.finRange n) s
  rw [regSum, Fin.sum_univ_def]
  exact this

/-! ### The whole time step -/

theorem schedule_inv {S : Type} (R : S → S → Prop) (hr : ∀ s, R s s) (ht : ∀ a b c, R a b → R b c → R a c) {E : Type}
    (ops : List (Op K S E)) (h : ∀ op ∈ ops, ∀ dt s, R s (op dt s).1) (sched : List (Nat × K)) (s : S) : R s (runSchedule ops sched s).1 := by
  induction sched generalizing s with
  | nil => exact hr s
  | cons q sched ih =>
    obtain ⟨i, dt⟩ := q
    rw [runSchedule]
    split
    · exact hr s
    · rename_i op hop
      have h1 := h op (List.mem_of_getElem? hop) dt s
      rcases hx : op dt s with ⟨s', _ | e⟩
      · rw [hx] at h1; exact ht _ _ _ h1 (ih s')
      · rw [hx] at h1; exact h1

theorem ite_ctx {S E : Type} {p : Prop} [Decidable p] (P : S → Prop) (a b : SplitState S × E) (ha : p → P a.1.ctx) (hb : ¬ p → P b.1.ctx) :
    P (if p then a else b).1.ctx := by
  split
  · exact ha ‹_›
  · exact hb ‹_›

theorem adv_inv [NeZero n] [LinearOrder K] (g : Grids n) (hg : g.Nested) (dx : Nat → Fin n → K) (hdx : ∀ l d, dx l d ≠ 0)
    (h : AmrHooks n K X) (hh : h.Ok g) (M : Split2 K (SplitState (AmrState n K X)) (StepErr K)) (hM : IsSplitting M) (l : Nat) (hl : l < g.levels)
    (cycle sub : Int) (hc : 0 ≤ cycle) (hs : 0 ≤ sub) (dt : K) (s : AmrState n K X) :
    LevelInv g dx l s (advanceNonRecursively (amrDirOps g dx h l) M n l cycle sub dt s).1 := by
  obtain ⟨sched, -, -, h3⟩ := hM n dt
  have hlen : (makeSplitDirections n cycle sub).length = n := by
    have := (splitDirections_perm n cycle sub hc hs).length_eq; simpa using this
  rw [advanceNonRecursively, h3 _ (by simp [hlen])]
  refine schedule_inv (fun a b : SplitState (AmrState n K X) => LevelInv g dx l a.ctx b.ctx) (fun _ => LevelInv.refl _ _ _ _)
    (fun _ _ _ h1 h2 => h1.trans h2) _ ?_ sched ⟨s, fun _ => 0, 0⟩
  intro op hop dt st
  obtain ⟨dir, -, rfl⟩ := List.mem_map.1 hop
  have h1 : LevelInv g dx l st.ctx (if st.count dir > 0 then h.applyBc l dir st.ctx else st.ctx) := by
    split
    · exact keeps_inv (hh.applyBc l dir) dx l _
    · exact LevelInv.refl _ _ _ _
  have h2 := keeps_inv (hh.preSplit l dt dir st.shared) dx l (if st.count dir > 0 then h.applyBc l dir st.ctx else st.ctx)
  simp only [splitOp, amrDirOps]
  exact ite_ctx (LevelInv g dx l st.ctx) _ _ (fun _ => h1.trans h2) (fun _ => (h1.trans h2).trans
    ((keeps_inv (hh.fluxes l dt dir) dx l _).trans
      (step_inv g hg dx hdx l hl dt _ (h.complete l dt) (hh.complete l dt) (hh.completeFlux l dt) _)))

/-- Integral over the uncovered cells of level `l` and all finer ones. -/
def massFrom (g : Grids n) (dx : Nat → Fin n → K) (l : Nat) (s : AmrState n K X) : K := ∑ k ∈ Ico l g.levels, levelMass g dx k s

/-- What a recursive advance of level `l` preserves. -/
structure TreeInv (g : Grids n) (dx : Nat → Fin n → K) (l : Nat) (s s' : AmrState n K X) : Prop where
  total : massFrom g dx l s' + regSum g l s' - inflow g dx s' = massFrom g dx l s + regSum g l s - inflow g dx s
  lower : ∀ k, k < l → levelMass g dx k s' = levelMass g dx k s
  regs : ∀ k, k < l → regSum g k s' = regSum g k s

theorem TreeInv.refl (g : Grids n) (dx : Nat → Fin n → K) (l : Nat) (s : AmrState n K X) : TreeInv g dx l s s :=
  ⟨rfl, fun _ _ => rfl, fun _ _ => rfl⟩

theorem TreeInv.trans {g : Grids n} {dx : Nat → Fin n → K} {l : Nat} {a b c : AmrState n K X} (h1 : TreeInv g dx l a b)
    (h2 : TreeInv g dx l b c) : TreeInv g dx l a c :=
  ⟨h2.total.trans h1.total, fun k hk => (h2.lower k hk).trans (h1.lower k hk), fun k hk => (h2.regs k hk).trans (h1.regs k hk)⟩

theorem keeps_tree {g : Grids n} {f : AmrState n K X → AmrState n K X} (hf : Keeps g f) (dx : Nat → Fin n → K) (l : Nat) (s : AmrState n K X) :
    TreeInv g dx l s (f s) := by
  obtain ⟨h1, h2, h3⟩ := keeps_mass hf dx s
  exact ⟨by simp only [massFrom, h1, h2, h3], fun k _ => h1 k, fun k _ => h2 k⟩

theorem massFrom_succ (g : Grids n) (dx : Nat → Fin n → K) (l : Nat) (hl : l < g.levels) (s : AmrState n K X) :
    massFrom g dx l s = levelMass g dx l s + massFrom g dx (l + 1) s := by
  rw [massFrom, massFrom, sum_eq_sum_Ico_succ_bot hl]

theorem massFrom_congr (g : Grids n) (dx : Nat → Fin n → K) (l : Nat) (s s' : AmrState n K X)
    (h : ∀ k, l ≤ k → levelMass g dx k s' = levelMass g dx k s) : massFrom g dx l s' = massFrom g dx l s :=
  sum_congr rfl fun k hk => h k (mem_Ico.1 hk).1

/-- One level: reset, fine steps, coarse step, correction, averaging. -/
theorem level_tree (g : Grids n) (dx : Nat → Fin n → K) (hdx : ∀ l d, dx l d ≠ 0) (l : Nat) (hl : l + 1 < g.levels) (s a b c : AmrState n K X)
    (h1 : TreeInv g dx (l + 1) (amrReset (l + 1) s) a) (h2 : LevelInv g dx l a b)
    (hc : c = amrCoarsen g (l + 1) l (amrCorrect g dx (l + 1) l b)) : TreeInv g dx l s c := by
  have hr : ∀ k, levelMass g dx k (amrReset (l + 1) s) = levelMass g dx k s := fun k => rfl
  have hri : inflow g dx (amrReset (l + 1) s) = inflow g dx s := rfl
  have hr0 : regSum g (l + 1) (amrReset (l + 1) s) = 0 := by
    rw [regSum]; refine sum_eq_zero fun e _ => ?_
    simp [amrReset, flowInto]
  have hrk : ∀ k, k ≠ l + 1 → regSum g k (amrReset (l + 1) s) = regSum g k s := by
    intro k hk
    cases k with
    | zero => rfl
    | succ k => simp only [regSum, amrReset, if_neg hk]
  obtain ⟨q1, q2, q3, q4⟩ := correct_spec g dx hdx l b
  have hcm : ∀ k, levelMass g dx k c = levelMass g dx k (amrCorrect g dx (l + 1) l b) := by
    intro k
    rw [hc, levelMass, levelMass]
    refine congrArg _ (sum_congr rfl fun i hi => ?_)
    rw [valid_mem] at hi
    simp only [amrCoarsen]
    rw [if_neg]
    rintro ⟨rfl, h⟩; exact hi.2 h
  have hcr : ∀ k, regSum g k c = regSum g k b := by
    intro k
    cases k with
    | zero => rfl
    | succ k => rw [regSum, regSum, hc, ← q2]; rfl
  have hcl : inflow g dx c = inflow g dx b := by
    show ((c.log).map _).sum = _
    rw [hc]; show ((amrCorrect g dx (l + 1) l b).log.map _).sum = _
    rw [q3]; rfl
  have hck : ∀ k, k ≠ l → levelMass g dx k c = levelMass g dx k b := by
    intro k hk; rw [hcm, levelMass, levelMass, q4 k hk]
  refine ⟨?_, fun k hk => ?_, fun k hk => ?_⟩
  · have e1 : massFrom g dx (l + 1) c = massFrom g dx (l + 1) a :=
      (massFrom_congr g dx (l + 1) b c fun k hk => hck k (by omega)).trans (massFrom_congr g dx (l + 1) a b fun k hk => h2.others k (by omega))
    have e2 : massFrom g dx (l + 1) (amrReset (l + 1) s) = massFrom g dx (l + 1) s := rfl
    have t1 := h1.total
    have t2 := h2.total
    rw [e2, hr0, hri] at t1
    have t3 : levelMass g dx l a = levelMass g dx l s := h1.lower l (by omega)
    have t4 : regSum g l a = regSum g l s := (h1.regs l (by omega)).trans (hrk l (by omega))
    rw [massFrom_succ g dx l (by omega) c, massFrom_succ g dx l (by omega) s, e1, hcm, q1, hcr, hcl]
    rw [t3, t4] at t2
    linear_combination t1 + t2
  · rw [hck k (by omega), h2.others k (by omega), h1.lower k (by omega)]; rfl
  · rw [hcr, h2.regs k (by omega) (by omega), h1.regs k (by omega), hrk k (by omega)]

theorem andThen_ok {S E : Type} {r : S × Option E} {f : S → S × Option E} (h : (andThen r f).2 = none) :
    r.2 = none ∧ andThen r f = f r.1 ∧ (f r.1).2 = none := by
  rcases r with ⟨s, _ | e⟩
  · exact ⟨rfl, rfl, h⟩
  · simp [andThen] at h

theorem scaleRes_none {S : Type} {ratio : Nat → Nat} {r : S × Option (StepErr K)} (h : (scaleRes ratio r).2 = none) : r.2 = none := by
  simpa [scaleRes] using h

theorem forSub_tree {E : Type} (g : Grids n) (dx : Nat → Fin n → K) (l : Nat) (f : Nat → AmrState n K X → AmrState n K X × Option E)
    (hf : ∀ r s, (f r s).2 = none → TreeInv g dx l s (f r s).1) (m : Nat) : ∀ (r : Nat) (s : AmrState n K X),
    (forSub f m r s).2 = none → TreeInv g dx l s (forSub f m r s).1 := by
  induction m with
  | zero => intro r s _; exact TreeInv.refl _ _ _ _
  | succ m ih =>
    intro r s h
    rw [forSub] at h ⊢
    obtain ⟨h1, h2, h3⟩ := andThen_ok h
    rw [h2]
    exact (hf r s h1).trans (ih (r + 1) _ h3)

theorem advanceLevel_tree [NeZero n] [LinearOrder K] (g : Grids n) (hg : g.Nested) (dx : Nat → Fin n → K) (hdx : ∀ l d, dx l d ≠ 0)
    (h : AmrHooks n K X) (hh : h.Ok g) (hcyc : ∀ s, 0 ≤ h.cycles s) (M : Split2 K (SplitState (AmrState n K X)) (StepErr K)) (hM : IsSplitting M) (fuel : Nat) :
    ∀ (l : Nat) (dt : K) (sub : Nat × Nat) (s : AmrState n K X), l < g.levels →
      (advanceLevel (amrSys g dx h M) fuel l dt sub s).2 = none →
      TreeInv g dx l s (advanceLevel (amrSys g dx h M) fuel l dt sub s).1 := by
  induction fuel with
  | zero => intro l dt sub s _ _; exact TreeInv.refl _ _ _ _
  | succ fuel ih =>
    intro l dt sub s hl hr
    have hpre := keeps_tree (hh.pre l dt sub) dx l s
    rw [advanceLevel] at hr ⊢
    by_cases hx : l + 1 < g.levels
    · have hlev : ∀ s, (amrSys g dx h M).levelExists s (l + 1) = true := fun s => by simp [amrSys, hx]
      simp only [hlev, if_true] at hr ⊢
      obtain ⟨r1, r2, r3⟩ := andThen_ok hr
      rw [r2]
      obtain ⟨r4, r5, r6⟩ := andThen_ok r3
      rw [r5]
      have f1 := forSub_tree g dx (l + 1) _ (fun r s hs => ih (l + 1) (dt / (g.ratio (l + 1) : K)) (r, g.ratio (l + 1)) s hx hs)
        (g.ratio (l + 1)) 0 _ (scaleRes_none r1)
      have f2 : ∀ s, LevelInv g dx l s ((amrSys g dx h M).adv l dt sub s).1 := fun s =>
        adv_inv g hg dx hdx h hh M hM l hl (h.cycles s) sub.1 (hcyc _) (by positivity) dt s
      have f3 := level_tree g dx hdx l hx _ _ _ _ f1 (f2 _) rfl
      exact (((hpre.trans f3).trans (keeps_tree (hh.complete l dt) dx l _)).trans (keeps_tree (hh.copyBack l) dx l _)).trans
        (keeps_tree (hh.post l dt sub) dx l _)
    · have hlev : ∀ s, (amrSys g dx h M).levelExists s (l + 1) = false := fun s => by simp [amrSys, hx]
      simp only [hlev, Bool.false_eq_true, if_false] at hr ⊢
      obtain ⟨r1, r2, r3⟩ := andThen_ok hr
      rw [r2]
      obtain ⟨r4, r5, r6⟩ := andThen_ok r3
      rw [r5]
      have f2 := adv_inv g hg dx hdx h hh M hM l hl (h.cycles (h.pre l dt sub s)) sub.1 (hcyc _) (by positivity) dt (h.pre l dt sub s)
      have hc := hg.finest l (by omega)
      have hz : ∀ s : AmrState n K X, regSum g (l + 1) s = 0 := fun s => by simp [regSum, hc, flowInto]
      have f3 : TreeInv g dx l (h.pre l dt sub s) (advanceNonRecursively (amrDirOps g dx h l) M n l (h.cycles (h.pre l dt sub s)) sub.1 dt
          (h.pre l dt sub s)).1 := by
        refine ⟨?_, fun k hk => f2.others k (by omega), fun k hk => f2.regs k (by omega) (by omega)⟩
        have t := f2.total
        rw [hz, hz] at t
        rw [massFrom_succ g dx l hl, massFrom_succ g dx l hl, massFrom_congr g dx (l + 1) _ _ fun k hk => f2.others k (by omega)]
        linear_combination t
      exact ((hpre.trans f3).trans (keeps_tree (hh.copyBack l) dx l _)).trans (keeps_tree (hh.post l dt sub) dx l _)

theorem fillAll_tree [NeZero n] [LinearOrder K] (g : Grids n) (dx : Nat → Fin n → K) (h : AmrHooks n K X) (hh : h.Ok g)
    (M : Split2 K (SplitState (AmrState n K X)) (StepErr K)) (fuel : Nat) : ∀ (l : Nat) (s : AmrState n K X),
    TreeInv g dx 0 s (fillAllTwo (amrSys g dx h M) fuel l s) := by
  induction fuel with
  | zero => intro l s; exact TreeInv.refl _ _ _ _
  | succ fuel ih =>
    intro l s
    rw [fillAllTwo]
    split
    · exact (keeps_tree (hh.fillTwo l (l - 1)) dx 0 s).trans (ih _ _)
    · exact TreeInv.refl _ _ _ _

theorem composite_of_tree {g : Grids n} {dx : Nat → Fin n → K} {s s' : AmrState n K X} (h : TreeInv g dx 0 s s') (hlog : s.log = []) :
    composite g dx s' = composite g dx s + (s'.log.map (boundaryInflow g dx)).sum := by
  have := h.total
  have e : ∀ s : AmrState n K X, composite g dx s = massFrom g dx 0 s := fun s => by
    rw [composite, massFrom, range_eq_Ico]; rfl
  have e2 : inflow g dx s = 0 := by simp [inflow, hlog]
  rw [e2] at this
  rw [e, e]
  simp only [regSum, inflow] at this
  linear_combination this

/-- **C17.** For every properly nested hierarchy with any number of levels, any refinement ratios, dimension, cell sizes, splitting method and flux
method: if the subcycled time step succeeds, the integral of the conserved variable over the domain has changed exactly by the
fluxes through the boundary of the domain that were used on the finest level there. -/
theorem amr_conservative [NeZero n] [LinearOrder K] (g : Grids n) (hg : g.Nested) (h0 : 0 < g.levels) (dx : Nat → Fin n → K) (hdx : ∀ l d, dx l d ≠ 0)
    (h : AmrHooks n K X) (hh : h.Ok g) (hcyc : ∀ s, 0 ≤ h.cycles s) (M : Split2 K (SplitState (AmrState n K X)) (StepErr K)) (hM : IsSplitting M)
    (maxLevels : Nat) (freq : Int) (dt : K) (s s' : AmrState n K X) (hlog : s.log = [])
    (hrun : advanceHierarchy (amrSys g dx h M) maxLevels freq dt s = some (s', none)) :
    composite g dx s' = composite g dx s + (s'.log.map (boundaryInflow g dx)).sum := by
  refine composite_of_tree ?_ hlog
  rw [advanceHierarchy] at hrun
  rcases hr : advanceLevel (amrSys g dx h M) maxLevels 0 dt (0, 1) s with ⟨s1, _ | e⟩
  · have t := advanceLevel_tree g hg dx hdx h hh hcyc M hM maxLevels 0 dt (0, 1) s h0 (by rw [hr])
    rw [hr] at t hrun
    simp only at hrun
    split at hrun
    · cases hrun
    · split at hrun
      · simp only [Option.some.injEq, Prod.mk.injEq, and_true] at hrun
        rw [← hrun]
        exact t.trans ((keeps_tree (hh.fillSingle 0) dx 0 s1).trans (fillAll_tree g dx h hh M _ _ _))
      · simp only [Option.some.injEq, Prod.mk.injEq, and_true] at hrun
        rw [← hrun]; exact t
  · rw [hr] at hrun; simp at hrun

/-- **C17 (without subcycling).** The same for the solver that advances all levels with the same step size. -/
theorem amr_conservative_noSubcycle [NeZero n] [LinearOrder K] (g : Grids n) (hg : g.Nested) (h0 : 0 < g.levels) (dx : Nat → Fin n → K)
    (hdx : ∀ l d, dx l d ≠ 0) (h : AmrHooks n K X) (hh : h.Ok g) (hcyc : ∀ s, 0 ≤ h.cycles s) (M : Split2 K (SplitState (AmrState n K X)) (StepErr K))
    (hM : IsSplitting M) (fuel : Nat) (dt : K) (s : AmrState n K X) (hlog : s.log = [])
    (hrun : (nscAdvanceLevel (amrSys g dx h M) fuel 0 dt s).2 = none) :
    let s' := (nscAdvanceLevel (amrSys g dx h M) fuel 0 dt s).1
    composite g dx s' = composite g dx s + (s'.log.map (boundaryInflow g dx)).sum := by
  have main : ∀ (fuel l : Nat) (dt : K) (s : AmrState n K X), l < g.levels → (nscAdvanceLevel (amrSys g dx h M) fuel l dt s).2 = none →
      TreeInv g dx l s (nscAdvanceLevel (amrSys g dx h M) fuel l dt s).1 := by
    intro fuel
    induction fuel with
    | zero => intro l dt s _ _; exact TreeInv.refl _ _ _ _
    | succ fuel ih =>
      intro l dt s hl hr
      have hpre := keeps_tree (hh.pre l dt (0, 1)) dx l s
      have hfill : ∀ s, TreeInv g dx l s (if l = 0 then (amrSys g dx h M).fillSingle l s else (amrSys g dx h M).fillTwo l (l - 1) s) := by
        intro s
        split
        · exact keeps_tree (hh.fillSingle l) dx l s
        · exact keeps_tree (hh.fillTwo l (l - 1)) dx l s
      rw [nscAdvanceLevel] at hr ⊢
      by_cases hx : l + 1 < g.levels
      · have hlev : ∀ s, (amrSys g dx h M).levelExists s (l + 1) = true := fun s => by simp [amrSys, hx]
        simp only [hlev, if_true] at hr ⊢
        obtain ⟨r1, r2, r3⟩ := andThen_ok hr
        rw [r2]
        obtain ⟨r4, r5, r6⟩ := andThen_ok r3
        rw [r5]
        have f1 := ih (l + 1) dt _ hx r1
        have f2 : ∀ s, LevelInv g dx l s ((amrSys g dx h M).adv l dt (0, 1) s).1 := fun s =>
          adv_inv g hg dx hdx h hh M hM l hl (h.cycles s) 0 (hcyc _) le_rfl dt s
        have f3 := level_tree g dx hdx l hx _ _ _ _ f1 (f2 _) rfl
        exact ((((hpre.trans f3).trans (keeps_tree (hh.complete l dt) dx l _)).trans (keeps_tree (hh.copyBack l) dx l _)).trans
          (hfill _)).trans (keeps_tree (hh.post l dt (0, 1)) dx l _)
      · have hlev : ∀ s, (amrSys g dx h M).levelExists s (l + 1) = false := fun s => by simp [amrSys, hx]
        simp only [hlev, Bool.false_eq_true, if_false] at hr ⊢
        obtain ⟨r1, r2, r3⟩ := andThen_ok hr
        rw [r2]
        obtain ⟨r4, r5, r6⟩ := andThen_ok r3
        rw [r5]
        have f2 := adv_inv g hg dx hdx h hh M hM l hl (h.cycles (h.pre l dt (0, 1) s)) 0 (hcyc _) le_rfl dt (h.pre l dt (0, 1) s)
        have hc := hg.finest l (by omega)
        have hz : ∀ s : AmrState n K X, regSum g (l + 1) s = 0 := fun s => by simp [regSum, hc, flowInto]
        have f3 : TreeInv g dx l (h.pre l dt (0, 1) s) (advanceNonRecursively (amrDirOps g dx h l) M n l (h.cycles (h.pre l dt (0, 1) s)) 0 dt
            (h.pre l dt (0, 1) s)).1 := by
          refine ⟨?_, fun k hk => f2.others k (by omega), fun k hk => f2.regs k (by omega) (by omega)⟩
          have t := f2.total
          rw [hz, hz] at t
          rw [massFrom_succ g dx l hl, massFrom_succ g dx l hl, massFrom_congr g dx (l + 1) _ _ fun k hk => f2.others k (by omega)]
          linear_combination t
        exact (((hpre.trans f3).trans (keeps_tree (hh.copyBack l) dx l _)).trans (hfill _)).trans (keeps_tree (hh.post l dt (0, 1)) dx l _)
  intro s'
  exact composite_of_tree (main fuel 0 dt s h0 hrun) hlog

/-! ### Synchronisation of the levels -/

/-- Data inside the patches agree on all levels except possibly `l`. -/
def SameExcept (g : Grids n) (l : Nat) (s s' : AmrState n K X) : Prop := ∀ k, k ≠ l → ∀ i ∈ g.cells k, s'.u k i = s.u k i

theorem synced_congr (g : Grids n) (hg : g.Nested) (l : Nat) (s s' : AmrState n K X) (h : ∀ k, l ≤ k → ∀ i ∈ g.cells k, s'.u k i = s.u k i)
    (hs : Synced g l s) : Synced g l s' := by
  intro k hk hk' i hi
  rw [h k hk i (hg.covered_sub k hi), hs k hk hk' i hi]
  congr 1
  refine sum_congr rfl fun f hf => (h (k + 1) (by omega) f ?_).symm
  rw [hg.refine k hk', (mem_fineCells _ (hg.ratio_pos _) _ _).1 hf]
  exact hi

theorem adv_same [NeZero n] [LinearOrder K] (g : Grids n) (dx : Nat → Fin n → K)
    (h : AmrHooks n K X) (hh : h.Ok g) (M : Split2 K (SplitState (AmrState n K X)) (StepErr K)) (hM : IsSplitting M) (l : Nat)
    (cycle sub : Int) (hc : 0 ≤ cycle) (hs : 0 ≤ sub) (dt : K) (s : AmrState n K X) :
    SameExcept g l s (advanceNonRecursively (amrDirOps g dx h l) M n l cycle sub dt s).1 := by
  obtain ⟨sched, -, -, h3⟩ := hM n dt
  have hlen : (makeSplitDirections n cycle sub).length = n := by
    have := (splitDirections_perm n cycle sub hc hs).length_eq; simpa using this
  have htrans : ∀ a b c : AmrState n K X, SameExcept g l a b → SameExcept g l b c → SameExcept g l a c :=
    fun a b c h1 h2 k hk i hi => (h2 k hk i hi).trans (h1 k hk i hi)
  have hkeep : ∀ {f : AmrState n K X → AmrState n K X}, Keeps g f → ∀ s, SameExcept g l s (f s) := fun hf s k _ i hi => (hf s).2.2 k i hi
  rw [advanceNonRecursively, h3 _ (by simp [hlen])]
  refine schedule_inv (fun a b : SplitState (AmrState n K X) => SameExcept g l a.ctx b.ctx) (fun _ _ _ _ _ => rfl)
    (fun _ _ _ h1 h2 => htrans _ _ _ h1 h2) _ ?_ sched ⟨s, fun _ => 0, 0⟩
  intro op hop dt st
  obtain ⟨dir, -, rfl⟩ := List.mem_map.1 hop
  have h1 : SameExcept g l st.ctx (if st.count dir > 0 then h.applyBc l dir st.ctx else st.ctx) := by
    split
    · exact hkeep (hh.applyBc l dir) _
    · exact fun _ _ _ _ => rfl
  have h2 := hkeep (hh.preSplit l dt dir st.shared) (if st.count dir > 0 then h.applyBc l dir st.ctx else st.ctx)
  simp only [splitOp, amrDirOps]
  refine ite_ctx (SameExcept g l st.ctx) _ _ (fun _ => htrans _ _ _ h1 h2) (fun _ => ?_)
  refine htrans _ _ _ (htrans _ _ _ h1 h2) (htrans _ _ _ (hkeep (hh.fluxes l dt dir) _) ?_)
  intro k hk i hi
  show (h.complete l dt _).u k i = _
  rw [(hh.complete l dt _).2.2 k i hi]
  simp [amrUpdate, hk]

theorem advanceLevel_synced [NeZero n] [LinearOrder K] (g : Grids n) (hg : g.Nested) (dx : Nat → Fin n → K)
    (hdx : ∀ l d, dx l d ≠ 0) (h : AmrHooks n K X) (hh : h.Ok g) (hcyc : ∀ s, 0 ≤ h.cycles s)
    (M : Split2 K (SplitState (AmrState n K X)) (StepErr K)) (hM : IsSplitting M) (fuel : Nat) :
    ∀ (l : Nat) (dt : K) (sub : Nat × Nat) (s : AmrState n K X), l < g.levels → g.levels ≤ fuel + l →
      (advanceLevel (amrSys g dx h M) fuel l dt sub s).2 = none →
      Synced g l (advanceLevel (amrSys g dx h M) fuel l dt sub s).1 := by
  have hkeep : ∀ {f : AmrState n K X → AmrState n K X}, Keeps g f → ∀ l s, Synced g l s → Synced g l (f s) :=
    fun hf l s hs => synced_congr g hg l s _ (fun k _ i hi => (hf s).2.2 k i hi) hs
  induction fuel with
  | zero => intro l dt sub s hl hf _; omega
  | succ fuel ih =>
    intro l dt sub s hl hf hr
    rw [advanceLevel] at hr ⊢
    by_cases hx : l + 1 < g.levels
    · have hlev : ∀ s, (amrSys g dx h M).levelExists s (l + 1) = true := fun s => by simp [amrSys, hx]
      simp only [hlev, if_true] at hr ⊢
      obtain ⟨r1, r2, r3⟩ := andThen_ok hr
      rw [r2]
      obtain ⟨r4, r5, r6⟩ := andThen_ok r3
      rw [r5]
      have hfor : ∀ (m : Nat) (r : Nat) (s : AmrState n K X), (forSub (fun r s => advanceLevel (amrSys g dx h M) fuel (l + 1)
          (dt / ((amrSys g dx h M).ratio (l + 1) : K)) (r, (amrSys g dx h M).ratio (l + 1)) s) (m + 1) r s).2 = none →
          Synced g (l + 1) (forSub (fun r s => advanceLevel (amrSys g dx h M) fuel (l + 1)
          (dt / ((amrSys g dx h M).ratio (l + 1) : K)) (r, (amrSys g dx h M).ratio (l + 1)) s) (m + 1) r s).1 := by
        intro m
        induction m with
        | zero =>
          intro r s h
          rw [forSub] at h ⊢
          obtain ⟨h1, h2, h3⟩ := andThen_ok h
          rw [h2]
          exact ih (l + 1) _ _ s hx (by omega) h1
        | succ m ihm =>
          intro r s h
          rw [forSub] at h ⊢
          obtain ⟨h1, h2, h3⟩ := andThen_ok h
          rw [h2]
          exact ihm (r + 1) _ h3
      have f1 := hfor (g.ratio (l + 1) - 1) 0 (amrReset (l + 1) (h.pre l dt sub s))
      rw [Nat.sub_add_cancel (hg.ratio_pos (l + 1))] at f1
      have f2 := f1 (scaleRes_none r1)
      refine hkeep (hh.post l dt sub) l _ (hkeep (hh.copyBack l) l _ (hkeep (hh.complete l dt) l _ ?_))
      generalize hq : (forSub (fun r s => advanceLevel (amrSys g dx h M) fuel (l + 1)
          (dt / ((amrSys g dx h M).ratio (l + 1) : K)) (r, (amrSys g dx h M).ratio (l + 1)) s) (g.ratio (l + 1)) 0
            (amrReset (l + 1) (h.pre l dt sub s))).1 = q at f2
      have hadv : SameExcept g l q ((amrSys g dx h M).adv l dt sub q).1 :=
        adv_same g dx h hh M hM l (h.cycles q) sub.1 (hcyc _) (by positivity) dt q
      have hq' : (scaleRes (amrSys g dx h M).ratio ((amrSys g dx h M).adv l dt sub (scaleRes (amrSys g dx h M).ratio
          (forSub (fun r s => advanceLevel (amrSys g dx h M) fuel (l + 1) (dt / ((amrSys g dx h M).ratio (l + 1) : K))
            (r, (amrSys g dx h M).ratio (l + 1)) s) ((amrSys g dx h M).ratio (l + 1)) 0
            ((amrSys g dx h M).reset (l + 1) l ((amrSys g dx h M).pre l dt sub s)))).1)).1 = ((amrSys g dx h M).adv l dt sub q).1 := by
        rw [← hq]; rfl
      rw [hq']
      generalize ((amrSys g dx h M).adv l dt sub q).1 = b at hadv
      have hcorr := (correct_spec g dx hdx l b).2.2.2
      have hb : Synced g (l + 1) (amrCorrect g dx (l + 1) l b) := by
        refine synced_congr g hg (l + 1) q _ (fun k hk i hi => ?_) f2
        rw [hcorr k (by omega)]; exact hadv k (by omega) i hi
      intro k hk hk' i hi
      show (amrCoarsen g (l + 1) l (amrCorrect g dx (l + 1) l b)).u k i = (∑ f ∈ fineCells (g.ratio (k + 1)) i,
        (amrCoarsen g (l + 1) l (amrCorrect g dx (l + 1) l b)).u (k + 1) f) / _
      by_cases hkl : k = l
      · subst hkl
        simp [amrCoarsen, hi]
      · have := hb k (by omega) hk' i hi
        have hk1 : k + 1 ≠ l := by omega
        simp only [amrCoarsen, hkl, hk1, false_and, if_false]
        exact this
    · intro k hk hk'; omega

/-- **C17 (levels agree).** After a successful subcycled step every cell that is covered by finer cells holds their mean, on all levels. -/
theorem amr_synchronised [NeZero n] [LinearOrder K] (g : Grids n) (hg : g.Nested) (h0 : 0 < g.levels) (dx : Nat → Fin n → K) (hdx : ∀ l d, dx l d ≠ 0)
    (h : AmrHooks n K X) (hh : h.Ok g) (hcyc : ∀ s, 0 ≤ h.cycles s) (M : Split2 K (SplitState (AmrState n K X)) (StepErr K)) (hM : IsSplitting M)
    (maxLevels : Nat) (hmax : g.levels ≤ maxLevels) (freq : Int) (dt : K) (s s' : AmrState n K X)
    (hrun : advanceHierarchy (amrSys g dx h M) maxLevels freq dt s = some (s', none)) : Synced g 0 s' := by
  have hkeep : ∀ {f : AmrState n K X → AmrState n K X}, Keeps g f → ∀ l s, Synced g l s → Synced g l (f s) :=
    fun hf l s hs => synced_congr g hg l s _ (fun k _ i hi => (hf s).2.2 k i hi) hs
  have hfill : ∀ (fuel l : Nat) (s : AmrState n K X), Synced g 0 s → Synced g 0 (fillAllTwo (amrSys g dx h M) fuel l s) := by
    intro fuel
    induction fuel with
    | zero => intro l s hs; exact hs
    | succ fuel ih =>
      intro l s hs
      rw [fillAllTwo]
      split
      · exact ih _ _ (hkeep (hh.fillTwo l (l - 1)) 0 s hs)
      · exact hs
  rw [advanceHierarchy] at hrun
  rcases hr : advanceLevel (amrSys g dx h M) maxLevels 0 dt (0, 1) s with ⟨s1, _ | e⟩
  · have t := advanceLevel_synced g hg dx hdx h hh hcyc M hM maxLevels 0 dt (0, 1) s h0 (by omega) (by rw [hr])
    rw [hr] at t hrun
    simp only at hrun
    split at hrun
    · cases hrun
    · split at hrun
      · simp only [Option.some.injEq, Prod.mk.injEq, and_true] at hrun
        rw [← hrun]
        exact hfill _ _ _ (hkeep (hh.fillSingle 0) 0 s1 t)
      · simp only [Option.some.injEq, Prod.mk.injEq, and_true] at hrun
        rw [← hrun]; exact t
  · rw [hr] at hrun; simp at hrun

/-! ### A concrete hierarchy -/

/-- Eight coarse cells, the middle four refined by two, and again the middle four of these. -/
def exGrids : Grids 1 where
  levels := 3
  ratio := fun _ => 2
  domain := fun l => if l = 0 then fineCells 8 0 else if l = 1 then fineCells 16 0 else fineCells 32 0
  cells := fun l => if l = 0 then fineCells 8 0 else if l = 1 then fineCells 8 0 |>.image (fun i => shift i 0 4)
    else if l = 2 then fineCells 8 0 |>.image (fun i => shift i 0 12) else ∅
  covered := fun l => if l = 0 then fineCells 4 0 |>.image (fun i => shift i 0 2) else if l = 1 then fineCells 4 0 |>.image (fun i => shift i 0 6)
    else ∅

theorem exMem (m : Nat) (i : Index 1) : i ∈ fineCells m 0 ↔ 0 ≤ i 0 ∧ i 0 < m := by
  simp [fineCells, Fintype.mem_piFinset]

theorem exMemShift (m : Nat) (a : Int) (i : Index 1) : i ∈ (fineCells m 0).image (fun i => shift i 0 a) ↔ a ≤ i 0 ∧ i 0 < a + m := by
  rw [mem_image]
  constructor
  · rintro ⟨j, hj, rfl⟩
    rw [exMem] at hj
    simp [shift]; omega
  · intro h
    refine ⟨shift i 0 (-a), ?_, by simpa using (shift_spec i 0 (-a)).2.2.2.1⟩
    rw [exMem]; simp [shift]; omega

theorem exCells (l : Nat) (i : Index 1) : i ∈ exGrids.cells l ↔
    (l = 0 ∧ 0 ≤ i 0 ∧ i 0 < 8) ∨ (l = 1 ∧ 4 ≤ i 0 ∧ i 0 < 12) ∨ (l = 2 ∧ 12 ≤ i 0 ∧ i 0 < 20) := by
  simp only [exGrids]
  split_ifs <;> (try rw [exMemShift]) <;> (try rw [exMem]) <;> simp <;> omega

theorem exCovered (l : Nat) (i : Index 1) : i ∈ exGrids.covered l ↔ (l = 0 ∧ 2 ≤ i 0 ∧ i 0 < 6) ∨ (l = 1 ∧ 6 ≤ i 0 ∧ i 0 < 10) := by
  simp only [exGrids]
  split_ifs <;> (try rw [exMemShift]) <;> simp <;> omega

theorem exDomain (l : Nat) (i : Index 1) : i ∈ exGrids.domain l ↔
    0 ≤ i 0 ∧ ((l = 0 ∧ i 0 < 8) ∨ (l = 1 ∧ i 0 < 16) ∨ (l ≠ 0 ∧ l ≠ 1 ∧ i 0 < 32)) := by
  simp only [exGrids]
  split_ifs <;> rw [exMem] <;> omega

/-- Upwind fluxes, no other effects. -/
def exHooks : AmrHooks 1 ℚ Unit where
  ranks := 0
  pre := fun _ _ _ s => s
  applyBc := fun _ _ s => s
  preSplit := fun _ _ _ _ s => s
  localDt := fun _ _ _ _ => 1
  fluxes := fun l _ _ s => { s with flux := fun k d i => if k = l then s.u l (shift i 0 (-1)) else s.flux k d i }
  complete := fun _ _ s => s
  copyBack := fun _ s => s
  fillSingle := fun _ s => s
  fillTwo := fun _ _ s => s
  post := fun _ _ _ s => (s, none)
  stableDt := fun _ _ => 1
  cycles := fun _ => 0

theorem exGridsNested : exGrids.Nested := by
  have hlv : exGrids.levels = 3 := rfl
  have hr : ∀ l, exGrids.ratio l = 2 := fun _ => rfl
  refine ⟨rfl, ?_, ?_, ?_, ?_, ?_, ?_, fun l => by rw [hr]; decide⟩
  · intro l i hi
    rw [exCovered] at hi; rw [exCells]; omega
  · intro l i hi
    rw [exCells] at hi; rw [exDomain]; omega
  · intro l hl i
    rw [exCells, exCovered, hr]; simp only [coarseOf]; omega
  · intro l hl i
    rw [exDomain, exDomain, hr]; simp only [coarseOf]; omega
  · intro l i hi d
    have hd : d = 0 := Subsingleton.elim _ _
    subst hd
    simp only [exDomain, exCells] at hi ⊢
    rw [exCovered] at hi
    simp [shift]; omega
  · intro l hl
    have : l ≠ 0 ∧ l ≠ 1 := by omega
    simp [exGrids, this.1, this.2]

theorem exHooksOk : exHooks.Ok exGrids := by
  constructor <;> intros <;> (try intro s) <;> (try exact ⟨rfl, rfl, fun _ _ _ => rfl⟩)
  rfl

/-- The hypotheses of the conservation theorem are met by a three-level hierarchy on which the step succeeds. -/
example : exGrids.Nested ∧ exHooks.Ok exGrids ∧
    (advanceHierarchy (amrSys exGrids (fun l _ => 1 / 2 ^ l) exHooks strangSplit) 3 1 (1/2)
      ⟨fun _ i => (i 0 : ℚ), fun _ _ _ => 0, fun _ _ _ => 0, [], ()⟩).map (fun r => (r.2, r.1.log.length)) = some (none, 7) :=
  ⟨exGridsNested, exHooksOk, by decide +kernel⟩

end Fub
