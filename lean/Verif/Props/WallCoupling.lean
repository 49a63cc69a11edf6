import Verif.Spec.WallCoupling
import Mathlib.Tactic.Linarith

/-! # The inflow from a tube through a wall: C160, C161 -/

namespace Fub

section
variable {K P R M : Type}

/-- Masks only in the cells of connections. -/
def MaskInv (ph : WallPhysics P R M) (s : WallStore R M) : Prop := ∀ (l : ℕ) (c : ℤ × ℤ), s.mask l c = true → ph.coupled l c = true

/-- All mirror states of a level are zero and its reference states are those of walls. -/
def WallOnly (ph : WallPhysics P R M) (k : ℕ) (p : P) (s : WallStore R M) : Prop := ∀ c : ℤ × ℤ, s.mirror k c = some ph.zero ∧ ∀ r : R, ph.wall p k c = some r → s.refs k c = some r

/-- The cells of connections are masked. -/
def Masked (ph : WallPhysics P R M) (k : ℕ) (s : WallStore R M) : Prop := ∀ c : ℤ × ℤ, ph.coupled k c = true → s.mask k c = true

/-- What is true of every computation of fluxes. -/
def GoodUse (ph : WallPhysics P R M) (N : ℕ) (e : WallUse P R M) : Prop :=
  (e.level + 1 = N → e.preLevel = e.level ∧ SeesTubes ph e.preState e.level e.store) ∧ (e.level + 1 < N → SeesVacuum ph e.preState e.level e.store)

/-- The invariant of a run while level `l` is advanced. -/
def WallInv (ph : WallPhysics P R M) (N l : ℕ) (s : WallRun P R M) : Prop := MaskInv ph s.store ∧ (∀ e ∈ s.log, GoodUse ph N e) ∧ ∀ k : ℕ, k < l → Masked ph k s.store

/-- Regrids on a level change finer levels only. -/
def RegridsFiner (regrid : P → ℕ → Option (ℕ × (ℕ → ℤ × ℤ → Bool))) : Prop := ∀ (p : P) (l : ℕ) (r : ℕ × (ℕ → ℤ × ℤ → Bool)), regrid p l = some r → l < r.1

theorem wallPre_mask (ph : WallPhysics P R M) (N : ℕ) (regrid : P → ℕ → Option (ℕ × (ℕ → ℤ × ℤ → Bool))) (p : P) (l : ℕ) (s : WallStore R M) (hs : MaskInv ph s) : MaskInv ph (wallPre ph N regrid p l s) := by
  intro k c hm
  unfold wallPre wallCouple at hm
  dsimp only at hm
  split_ifs at hm with h
  · rw [h.1]; exact h.2
  · revert hm
    cases hr : regrid p l with
    | none => exact fun hm => hs k c hm
    | some r =>
      intro hm
      unfold wallReset at hm
      dsimp only at hm
      split_ifs at hm with h2
      exact hs k c hm

/-- After `PreAdvanceLevel` of a level the level sees tubes and walls. -/
theorem wallPre_sees (ph : WallPhysics P R M) (N : ℕ) (regrid : P → ℕ → Option (ℕ × (ℕ → ℤ × ℤ → Bool))) (hreg : RegridsFiner regrid) (p : P) (l : ℕ) (hl : l < N) (s : WallStore R M) (hs : MaskInv ph s) :
    SeesTubes ph p l (wallPre ph N regrid p l s) := by
  have hm := wallPre_mask ph N regrid p l s hs
  intro c
  constructor
  · intro hc
    unfold wallOtherSide wallPre wallCouple
    simp [hc]
  · intro hc
    constructor
    · unfold wallOtherSide
      rw [if_neg]
      intro h
      rw [hm l c h] at hc
      cases hc
    · intro r hr
      unfold wallPre wallCouple
      dsimp only
      rw [if_neg (by rw [hc]; simp)]
      cases hg : regrid p l with
      | none =>
        unfold wallPreHierarchy
        dsimp only
        rw [if_pos hl, hr]
      | some g =>
        unfold wallReset wallPreHierarchy
        dsimp only
        rw [if_neg (not_le.2 (hreg p l g hg)), if_pos hl, hr]

/-- `PreAdvanceLevel` of a finer level replaces the states of the tubes. -/
theorem wallPre_only (ph : WallPhysics P R M) (N : ℕ) (regrid : P → ℕ → Option (ℕ × (ℕ → ℤ × ℤ → Bool))) (hreg : RegridsFiner regrid) (p : P) (l k : ℕ) (hl : l < N) (hk : k < l) (s : WallStore R M) :
    WallOnly ph k p (wallPre ph N regrid p l s) := by
  intro c
  unfold wallPre wallCouple
  dsimp only
  rw [if_neg (by omega), if_neg (by omega)]
  cases hg : regrid p l with
  | none =>
    unfold wallPreHierarchy
    dsimp only
    rw [if_pos (by omega), if_pos (by omega)]
    exact ⟨rfl, fun r hr => by rw [hr]⟩
  | some g =>
    have := hreg p l g hg
    unfold wallReset wallPreHierarchy
    dsimp only
    rw [if_neg (by omega), if_pos (by omega), if_neg (by omega), if_pos (by omega)]
    exact ⟨rfl, fun r hr => by rw [hr]⟩

theorem wallPre_masked (ph : WallPhysics P R M) (N : ℕ) (regrid : P → ℕ → Option (ℕ × (ℕ → ℤ × ℤ → Bool))) (hreg : RegridsFiner regrid) (p : P) (l k : ℕ) (hk : k ≤ l) (s : WallStore R M) (hs : k < l → Masked ph k s) :
    Masked ph k (wallPre ph N regrid p l s) := by
  intro c hc
  unfold wallPre wallCouple
  dsimp only
  by_cases h : k = l
  · rw [if_pos ⟨h, h ▸ hc⟩]
  · rw [if_neg (fun h2 => h h2.1)]
    cases hg : regrid p l with
    | none => exact hs (by omega) c hc
    | some g =>
      have := hreg p l g hg
      unfold wallReset
      dsimp only
      rw [if_neg (by omega)]
      exact hs (by omega) c hc

theorem forSub_reach {S E : Type} (Q Z : S → Prop) (f : ℕ → S → S × Option E) (hQ : ∀ (r : ℕ) (s : S), Q s → Q (f r s).1) (hZ : ∀ (r : ℕ) (s : S), Q s → Z (f r s).1) (n r : ℕ) (s : S) (hs : Q s) :
    Q (forSub f n r s).1 ∧ ((n ≠ 0 ∨ Z s) → Z (forSub f n r s).1) := by
  induction n generalizing r s with
  | zero =>
    refine ⟨hs, ?_⟩
    rintro (h | h)
    · exact absurd rfl h
    · exact h
  | succ n ih =>
    rw [forSub]
    unfold andThen
    cases hf : (f r s).2 with
    | some e => exact ⟨hQ r s hs, fun _ => hZ r s hs⟩
    | none => exact ⟨(ih (r + 1) _ (hQ r s hs)).1, fun _ => (ih (r + 1) _ (hQ r s hs)).2 (Or.inr (hZ r s hs))⟩

/-- The last part of `AdvanceLevel` of both solvers: the fluxes and what follows. -/
theorem wall_adv_tail (base : LevelSys K P) (ph : WallPhysics P R M) (N l : ℕ) (regrid : P → ℕ → Option (ℕ × (ℕ → ℤ × ℤ → Bool))) (s : WallRun P R M) (hs : WallInv ph N l s) (hu : GoodUse ph N ⟨l, s.preLevel, s.preState, s.store⟩)
    (dt : K) (sub : ℕ × ℕ) :
    WallInv ph N l ((wallSys base ph N regrid).adv l dt sub s).1 ∧ ((wallSys base ph N regrid).adv l dt sub s).1.store = s.store ∧ ((wallSys base ph N regrid).adv l dt sub s).1.preState = s.preState := by
  refine ⟨⟨hs.1, ?_, hs.2.2⟩, rfl, rfl⟩
  intro e he
  rcases List.mem_cons.1 he with rfl | he
  · exact hu
  · exact hs.2.1 e he

theorem wall_tail_same (base : LevelSys K P) (ph : WallPhysics P R M) (N l : ℕ) (regrid : P → ℕ → Option (ℕ × (ℕ → ℤ × ℤ → Bool))) (dt : K) (sub : ℕ × ℕ) (s : WallRun P R M) :
    ∀ u : WallRun P R M, u = ((wallSys base ph N regrid).post l dt sub ((wallSys base ph N regrid).copyBack l (if (wallSys base ph N regrid).levelExists (if (wallSys base ph N regrid).levelExists s (l + 1) then (wallSys base ph N regrid).corr (l + 1) l dt s else s) (l + 1) then
      (wallSys base ph N regrid).complete l dt ((wallSys base ph N regrid).coarsen (l + 1) l (if (wallSys base ph N regrid).levelExists s (l + 1) then (wallSys base ph N regrid).corr (l + 1) l dt s else s))
      else (if (wallSys base ph N regrid).levelExists s (l + 1) then (wallSys base ph N regrid).corr (l + 1) l dt s else s)))).1 →
    u.store = s.store ∧ u.preState = s.preState ∧ u.log = s.log := by
  rintro u rfl
  unfold wallSys
  dsimp only
  split_ifs <;> exact ⟨rfl, rfl, rfl⟩

theorem wall_advance [Field K] [LinearOrder K] (base : LevelSys K P) (ph : WallPhysics P R M) (N : ℕ) (regrid : P → ℕ → Option (ℕ × (ℕ → ℤ × ℤ → Bool))) (hreg : RegridsFiner regrid) (hratio : ∀ l : ℕ, 0 < base.ratio l)
    (fuel l : ℕ) (hl : l < N) (hf : N ≤ fuel + l) (dt : K) (sub : ℕ × ℕ) (s : WallRun P R M) (hs : WallInv ph N l s) :
    WallInv ph N l (advanceLevel (wallSys base ph N regrid) fuel l dt sub s).1 ∧
      ∀ k : ℕ, k < l → WallOnly ph k (advanceLevel (wallSys base ph N regrid) fuel l dt sub s).1.preState (advanceLevel (wallSys base ph N regrid) fuel l dt sub s).1.store := by
  induction fuel generalizing l dt sub s with
  | zero => omega
  | succ fuel ih =>
    set B := wallSys base ph N regrid with hB
    have h0 : WallInv ph N l (B.pre l dt sub s) := ⟨wallPre_mask ph N regrid s.gas l s.store hs.1, hs.2.1, fun k hk => wallPre_masked ph N regrid hreg s.gas l k hk.le s.store (hs.2.2 k)⟩
    have h1 : ∀ k : ℕ, k < l → WallOnly ph k (B.pre l dt sub s).preState (B.pre l dt sub s).store := fun k hk => wallPre_only ph N regrid hreg s.gas l k hl hk s.store
    have h2 : Masked ph l (B.pre l dt sub s).store := wallPre_masked ph N regrid hreg s.gas l l le_rfl s.store (fun h => absurd h (lt_irrefl _))
    have h3 : SeesTubes ph (B.pre l dt sub s).preState l (B.pre l dt sub s).store := wallPre_sees ph N regrid hreg s.gas l hl s.store hs.1
    have h4 : (B.pre l dt sub s).preLevel = l := rfl
    rw [advanceLevel]
    dsimp only
    generalize B.pre l dt sub s = t at h0 h1 h2 h3 h4
    -- everything after the finer levels
    have key : ∀ t : WallRun P R M, WallInv ph N l t → (∀ k : ℕ, k < l → WallOnly ph k t.preState t.store) → GoodUse ph N ⟨l, t.preLevel, t.preState, t.store⟩ →
        ∀ r : WallRun P R M × Option (StepErr K), r = (andThen (scaleRes B.ratio (B.adv l dt sub t)) fun s =>
          scaleRes B.ratio (B.post l dt sub (B.copyBack l (if B.levelExists (if B.levelExists s (l + 1) then B.corr (l + 1) l dt s else s) (l + 1) then B.complete l dt (B.coarsen (l + 1) l (if B.levelExists s (l + 1) then B.corr (l + 1) l dt s else s)) else (if B.levelExists s (l + 1) then B.corr (l + 1) l dt s else s))))) →
        WallInv ph N l r.1 ∧ ∀ k : ℕ, k < l → WallOnly ph k r.1.preState r.1.store := by
      intro t ht1 ht2 ht3 r hr
      have := wall_adv_tail base ph N l regrid t ht1 ht3 dt sub
      rw [← hB] at this
      have hfin : ∀ u : WallRun P R M, u.store = (B.adv l dt sub t).1.store → u.preState = (B.adv l dt sub t).1.preState → u.log = (B.adv l dt sub t).1.log → WallInv ph N l u ∧ ∀ k : ℕ, k < l → WallOnly ph k u.preState u.store := by
        intro u hu1 hu2 hu3
        refine ⟨⟨?_, ?_, ?_⟩, ?_⟩
        · rw [hu1]; exact this.1.1
        · rw [hu3]; exact this.1.2.1
        · rw [hu1]; exact this.1.2.2
        · rw [hu1, hu2, this.2.1, this.2.2]; exact ht2
      rw [hr]
      unfold andThen
      cases he : (scaleRes B.ratio (B.adv l dt sub t)).2 with
      | some e => exact hfin _ rfl rfl rfl
      | none =>
        dsimp only
        have hsame := wall_tail_same base ph N l regrid dt sub (B.adv l dt sub t).1 _ rfl
        exact hfin _ hsame.1 hsame.2.1 hsame.2.2
    by_cases hN : l + 1 < N
    · have hex : ∀ u : WallRun P R M, B.levelExists u (l + 1) = true := fun u => decide_eq_true hN
      rw [if_pos (hex t)]
      have hfs := forSub_reach (fun u : WallRun P R M => WallInv ph N (l + 1) u) (fun u => ∀ k : ℕ, k < l + 1 → WallOnly ph k u.preState u.store)
        (fun r u => advanceLevel B fuel (l + 1) (dt / (B.ratio (l + 1) : K)) (r, B.ratio (l + 1)) u)
        (fun r u hu => (ih (l + 1) hN (by omega) _ _ u hu).1) (fun r u hu => (ih (l + 1) hN (by omega) _ _ u hu).2) (B.ratio (l + 1)) 0 (B.reset (l + 1) l t)
        ⟨h0.1, h0.2.1, fun k hk => by
          rcases Nat.lt_succ_iff_lt_or_eq.1 hk with hk | rfl
          · exact h0.2.2 k hk
          · exact h2⟩
      generalize forSub (fun r u => advanceLevel B fuel (l + 1) (dt / (B.ratio (l + 1) : K)) (r, B.ratio (l + 1)) u) (B.ratio (l + 1)) 0 (B.reset (l + 1) l t) = f at hfs
      have hr1 : B.ratio (l + 1) ≠ 0 := (hratio (l + 1)).ne'
      have hf2 := hfs.2 (Or.inl hr1)
      have hq : WallInv ph N l f.1 := ⟨hfs.1.1, hfs.1.2.1, fun k hk => hfs.1.2.2 k (by omega)⟩
      have hw : ∀ k : ℕ, k < l → WallOnly ph k f.1.preState f.1.store := fun k hk => hf2 k (by omega)
      have hg : GoodUse ph N ⟨l, f.1.preLevel, f.1.preState, f.1.store⟩ := by
        refine ⟨fun h => absurd h (by dsimp only; omega), fun _ c hc => ?_⟩
        unfold wallOtherSide
        dsimp only
        rw [if_pos (hfs.1.2.2 l (by omega) c hc), (hf2 l (by omega) c).1]
        exact ⟨rfl, (hf2 l (by omega) c).2⟩
      unfold andThen at *
      cases he : (scaleRes B.ratio f).2 with
      | some e => exact ⟨hq, hw⟩
      | none => exact key f.1 hq hw hg _ rfl
    · have hex : ∀ u : WallRun P R M, B.levelExists u (l + 1) = false := fun u => decide_eq_false hN
      rw [if_neg (by rw [hex t]; simp)]
      exact key t h0 h1 ⟨fun _ => ⟨h4, h3⟩, fun h => absurd h hN⟩ _ rfl

theorem wall_nsc_same (base : LevelSys K P) (ph : WallPhysics P R M) (N l : ℕ) (regrid : P → ℕ → Option (ℕ × (ℕ → ℤ × ℤ → Bool))) (dt : K) (sub : ℕ × ℕ) (s : WallRun P R M) :
    ∀ u : WallRun P R M, u = ((wallSys base ph N regrid).post l dt sub (if l = 0 then (wallSys base ph N regrid).fillSingle l ((wallSys base ph N regrid).copyBack l (if (wallSys base ph N regrid).levelExists s (l + 1) then
      (wallSys base ph N regrid).complete l dt ((wallSys base ph N regrid).coarsen (l + 1) l ((wallSys base ph N regrid).corr (l + 1) l dt s)) else s))
      else (wallSys base ph N regrid).fillTwo l (l - 1) ((wallSys base ph N regrid).copyBack l (if (wallSys base ph N regrid).levelExists s (l + 1) then
      (wallSys base ph N regrid).complete l dt ((wallSys base ph N regrid).coarsen (l + 1) l ((wallSys base ph N regrid).corr (l + 1) l dt s)) else s)))).1 →
    u.store = s.store ∧ u.preState = s.preState ∧ u.log = s.log := by
  rintro u rfl
  unfold wallSys
  dsimp only
  split_ifs <;> exact ⟨rfl, rfl, rfl⟩

theorem wall_nsc [Field K] [LinearOrder K] (base : LevelSys K P) (ph : WallPhysics P R M) (N : ℕ) (regrid : P → ℕ → Option (ℕ × (ℕ → ℤ × ℤ → Bool))) (hreg : RegridsFiner regrid)
    (fuel l : ℕ) (hl : l < N) (hf : N ≤ fuel + l) (dt : K) (s : WallRun P R M) (hs : WallInv ph N l s) :
    WallInv ph N l (nscAdvanceLevel (wallSys base ph N regrid) fuel l dt s).1 ∧
      ∀ k : ℕ, k < l → WallOnly ph k (nscAdvanceLevel (wallSys base ph N regrid) fuel l dt s).1.preState (nscAdvanceLevel (wallSys base ph N regrid) fuel l dt s).1.store := by
  induction fuel generalizing l dt s with
  | zero => omega
  | succ fuel ih =>
    set B := wallSys base ph N regrid with hB
    have h0 : WallInv ph N l (B.pre l dt (0, 1) s) := ⟨wallPre_mask ph N regrid s.gas l s.store hs.1, hs.2.1, fun k hk => wallPre_masked ph N regrid hreg s.gas l k hk.le s.store (hs.2.2 k)⟩
    have h1 : ∀ k : ℕ, k < l → WallOnly ph k (B.pre l dt (0, 1) s).preState (B.pre l dt (0, 1) s).store := fun k hk => wallPre_only ph N regrid hreg s.gas l k hl hk s.store
    have h2 : Masked ph l (B.pre l dt (0, 1) s).store := wallPre_masked ph N regrid hreg s.gas l l le_rfl s.store (fun h => absurd h (lt_irrefl _))
    have h3 : SeesTubes ph (B.pre l dt (0, 1) s).preState l (B.pre l dt (0, 1) s).store := wallPre_sees ph N regrid hreg s.gas l hl s.store hs.1
    have h4 : (B.pre l dt (0, 1) s).preLevel = l := rfl
    rw [nscAdvanceLevel]
    dsimp only
    generalize B.pre l dt (0, 1) s = t at h0 h1 h2 h3 h4
    have key : ∀ t : WallRun P R M, WallInv ph N l t → (∀ k : ℕ, k < l → WallOnly ph k t.preState t.store) → GoodUse ph N ⟨l, t.preLevel, t.preState, t.store⟩ →
        ∀ r : WallRun P R M × Option (StepErr K), r = (andThen (B.adv l dt (0, 1) t) fun s =>
          B.post l dt (0, 1) (if l = 0 then B.fillSingle l (B.copyBack l (if B.levelExists s (l + 1) then B.complete l dt (B.coarsen (l + 1) l (B.corr (l + 1) l dt s)) else s))
            else B.fillTwo l (l - 1) (B.copyBack l (if B.levelExists s (l + 1) then B.complete l dt (B.coarsen (l + 1) l (B.corr (l + 1) l dt s)) else s)))) →
        WallInv ph N l r.1 ∧ ∀ k : ℕ, k < l → WallOnly ph k r.1.preState r.1.store := by
      intro t ht1 ht2 ht3 r hr
      have := wall_adv_tail base ph N l regrid t ht1 ht3 dt (0, 1)
      rw [← hB] at this
      have hfin : ∀ u : WallRun P R M, u.store = (B.adv l dt (0, 1) t).1.store → u.preState = (B.adv l dt (0, 1) t).1.preState → u.log = (B.adv l dt (0, 1) t).1.log → WallInv ph N l u ∧ ∀ k : ℕ, k < l → WallOnly ph k u.preState u.store := by
        intro u hu1 hu2 hu3
        refine ⟨⟨?_, ?_, ?_⟩, ?_⟩
        · rw [hu1]; exact this.1.1
        · rw [hu3]; exact this.1.2.1
        · rw [hu1]; exact this.1.2.2
        · rw [hu1, hu2, this.2.1, this.2.2]; exact ht2
      rw [hr]
      unfold andThen
      cases he : (B.adv l dt (0, 1) t).2 with
      | some e => exact hfin _ rfl rfl rfl
      | none =>
        dsimp only
        have hsame := wall_nsc_same base ph N l regrid dt (0, 1) (B.adv l dt (0, 1) t).1 _ rfl
        exact hfin _ hsame.1 hsame.2.1 hsame.2.2
    by_cases hN : l + 1 < N
    · have hex : ∀ u : WallRun P R M, B.levelExists u (l + 1) = true := fun u => decide_eq_true hN
      rw [if_pos (hex t)]
      have hfs := ih (l + 1) hN (by omega) dt (B.reset (l + 1) l t) ⟨h0.1, h0.2.1, fun k hk => by
          rcases Nat.lt_succ_iff_lt_or_eq.1 hk with hk | rfl
          · exact h0.2.2 k hk
          · exact h2⟩
      generalize nscAdvanceLevel B fuel (l + 1) dt (B.reset (l + 1) l t) = f at hfs
      have hf2 := hfs.2
      have hq : WallInv ph N l f.1 := ⟨hfs.1.1, hfs.1.2.1, fun k hk => hfs.1.2.2 k (by omega)⟩
      have hw : ∀ k : ℕ, k < l → WallOnly ph k f.1.preState f.1.store := fun k hk => hf2 k (by omega)
      have hg : GoodUse ph N ⟨l, f.1.preLevel, f.1.preState, f.1.store⟩ := by
        refine ⟨fun h => absurd h (by dsimp only; omega), fun _ c hc => ?_⟩
        unfold wallOtherSide
        dsimp only
        rw [if_pos (hfs.1.2.2 l (by omega) c hc), (hf2 l (by omega) c).1]
        exact ⟨rfl, (hf2 l (by omega) c).2⟩
      unfold andThen at *
      cases he : f.2 with
      | some e => exact ⟨hq, hw⟩
      | none => exact key f.1 hq hw hg _ rfl
    · have hex : ∀ u : WallRun P R M, B.levelExists u (l + 1) = false := fun u => decide_eq_false hN
      rw [if_neg (by rw [hex t]; simp)]
      exact key t h0 h1 ⟨fun _ => ⟨h4, h3⟩, fun h => absurd h hN⟩ _ rfl

/-- **C160.** Whatever the gas does, however often the hierarchy is regridded and whether or not the step fails: in a step of the hierarchy with or without subcycling, every computation of fluxes on the finest level sees in the cells of a connection the
state of the tube, and in all other wall cells the wall, computed from the gas at the begin of the step of that level. Cells outside connections are never masked afterwards, so this holds for the next step as well. -/
theorem finest_level_sees_tubes [Field K] [LinearOrder K] (base : LevelSys K P) (ph : WallPhysics P R M) (N : ℕ) (hN : 0 < N) (regrid : P → ℕ → Option (ℕ × (ℕ → ℤ × ℤ → Bool)))
    (hreg : ∀ (p : P) (l : ℕ) (r : ℕ × (ℕ → ℤ × ℤ → Bool)), regrid p l = some r → l < r.1) (hratio : ∀ l : ℕ, 0 < base.ratio l) (dt : K) (s : WallRun P R M)
    (hmask : ∀ (l : ℕ) (c : ℤ × ℤ), s.store.mask l c = true → ph.coupled l c = true) (hlog : s.log = []) :
    ∀ r : WallRun P R M × Option (StepErr K), r = advanceLevel (wallSys base ph N regrid) N 0 dt (0, 1) s ∨ r = nscAdvanceLevel (wallSys base ph N regrid) N 0 dt s →
      (∀ e ∈ r.1.log, e.level + 1 = N → e.preLevel = e.level ∧ SeesTubes ph e.preState e.level e.store) ∧
      ∀ (l : ℕ) (c : ℤ × ℤ), r.1.store.mask l c = true → ph.coupled l c = true := by
  have hs : WallInv ph N 0 s := ⟨hmask, by (rw [hlog]; intro e he; cases he), fun k hk => absurd hk (Nat.not_lt_zero k)⟩
  rintro r (rfl | rfl)
  · have h := (wall_advance base ph N regrid hreg hratio N 0 hN (by omega) dt (0, 1) s hs).1
    exact ⟨fun e he => (h.2.1 e he).1, h.1⟩
  · have h := (wall_nsc base ph N regrid hreg N 0 hN (by omega) dt s hs).1
    exact ⟨fun e he => (h.2.1 e he).1, h.1⟩

/-- **C161.** Every computation of fluxes on a level with finer levels sees, in the cells of a connection, a state with all components zero behind the wall and the reference state of a closed wall: the coupling is lost. -/
theorem coarse_levels_lose_tubes [Field K] [LinearOrder K] (base : LevelSys K P) (ph : WallPhysics P R M) (N : ℕ) (hN : 0 < N) (regrid : P → ℕ → Option (ℕ × (ℕ → ℤ × ℤ → Bool)))
    (hreg : ∀ (p : P) (l : ℕ) (r : ℕ × (ℕ → ℤ × ℤ → Bool)), regrid p l = some r → l < r.1) (hratio : ∀ l : ℕ, 0 < base.ratio l) (dt : K) (s : WallRun P R M)
    (hmask : ∀ (l : ℕ) (c : ℤ × ℤ), s.store.mask l c = true → ph.coupled l c = true) (hlog : s.log = []) :
    ∀ r : WallRun P R M × Option (StepErr K), r = advanceLevel (wallSys base ph N regrid) N 0 dt (0, 1) s ∨ r = nscAdvanceLevel (wallSys base ph N regrid) N 0 dt s →
      ∀ e ∈ r.1.log, e.level + 1 < N → SeesVacuum ph e.preState e.level e.store := by
  have hs : WallInv ph N 0 s := ⟨hmask, by (rw [hlog]; intro e he; cases he), fun k hk => absurd hk (Nat.not_lt_zero k)⟩
  rintro r (rfl | rfl)
  · have h := (wall_advance base ph N regrid hreg hratio N 0 hN (by omega) dt (0, 1) s hs).1
    exact fun e he => (h.2.1 e he).2
  · have h := (wall_nsc base ph N regrid hreg N 0 hN (by omega) dt s hs).1
    exact fun e he => (h.2.1 e he).2

end

theorem rect_has_iff (b : Rect) (i : ℤ × ℤ) : b.has i = true ↔ InRect b i := by
  unfold Rect.has InRect
  simp [and_assoc]

/-- A hierarchy of two levels whose gas counts the steps of its levels, a plenum with one coupled wall cell, and a tube with one more than that number. -/
def wallExampleBase : LevelSys ℚ ℕ where
  levelExists := fun _ _ => true
  ratio := fun _ => 2
  stableDt := fun _ _ => 1
  pre := fun _ _ _ s => s
  reset := fun _ _ s => s
  adv := fun _ _ _ s => (s + 1, none)
  corr := fun _ _ _ s => s
  coarsen := fun _ _ s => s
  complete := fun _ _ s => s
  copyBack := fun _ s => s
  fillSingle := fun _ s => s
  fillTwo := fun _ _ s => s
  post := fun _ _ _ s => (s, none)
  cycles := fun _ => 0

def wallExamplePhysics : WallPhysics ℕ ℕ ℕ where
  wall := fun p _ c => if c.2 = 3 then some p else none
  tube := fun p _ _ => (p + 100, p + 200)
  zero := 0
  coupled := fun _ c => decide (c = (5, 3))

def wallExampleStart : WallRun ℕ ℕ ℕ := ⟨7, ⟨fun _ _ => none, fun _ _ => none, fun _ _ => false⟩, 0, 7, []⟩

/-- The fluxes of level 1 see the tube with the value of the gas, twice; those of level 0 see zero and the reference state of a wall. -/
example : ((advanceLevel (wallSys wallExampleBase wallExamplePhysics 2 (fun _ _ => none)) 2 0 1 (0, 1) wallExampleStart).1.log.map fun e =>
    (e.level, e.preState, wallOtherSide e.store e.level (5, 3), e.store.refs e.level (5, 3))) =
    [(0, 8, some (some 0), some 8), (1, 8, some (some 208), some 108), (1, 7, some (some 207), some 107)] := by decide +kernel

/-- The hypotheses of `finest_level_sees_tubes` and `coarse_levels_lose_tubes` hold in the example, also with a regrid of level 1 in every step of level 0. -/
example : (∀ (p : ℕ) (l : ℕ) (r : ℕ × (ℕ → ℤ × ℤ → Bool)), (fun (_ : ℕ) (l : ℕ) => if l = 0 then some (1, fun _ _ => false) else none) p l = some r → l < r.1) ∧ (∀ l : ℕ, 0 < wallExampleBase.ratio l) ∧
    (∀ (l : ℕ) (c : ℤ × ℤ), wallExampleStart.store.mask l c = true → wallExamplePhysics.coupled l c = true) ∧ wallExampleStart.log = [] := by
  refine ⟨?_, fun _ => Nat.zero_lt_two, fun l c h => absurd h (by simp [wallExampleStart]), rfl⟩
  intro p l r h
  dsimp only at h
  split_ifs at h with h0
  cases h
  omega

/-- **C161 (part).** The cells of the coarsest level that are masked for a connection with a normal are those of its box with that normal. The full claim, for the region of the box on every level, is false: see `coupled_box_misplaced`. -/
theorem coupled_box_partial (box : Rect) (ok : ℕ → ℤ × ℤ → Bool) (c : ℤ × ℤ) : coupledCells box ok 0 c = true ↔ InRegion box 0 c ∧ ok 0 c = true := by
  unfold coupledCells InRegion
  rw [Bool.and_eq_true]
  simp only [pow_zero, Int.ediv_one]
  rw [rect_has_iff]

/-- On every finer level no masked cell lies in the region of the box, as soon as the box is away from the origin. -/
theorem coupled_box_misplaced (box : Rect) (h : box.hi.1 < 2 * box.lo.1) (hlo : 0 ≤ box.lo.1) (ok : ℕ → ℤ × ℤ → Bool) (l : ℕ) (hl : 0 < l) (c : ℤ × ℤ) (hc : coupledCells box ok l c = true) : ¬ InRegion box l c := by
  unfold coupledCells at hc
  rw [Bool.and_eq_true, rect_has_iff] at hc
  intro hr
  have h1 := hc.1.1.2
  have h2 := hr.1.1
  dsimp only at h2
  have h3 : box.lo.1 * 2 ^ l ≤ c.1 := (Int.le_ediv_iff_mul_le (by positivity)).1 h2
  have h4 : (2 : ℤ) ≤ 2 ^ l := by
    calc (2 : ℤ) = 2 ^ 1 := by norm_num
      _ ≤ 2 ^ l := pow_le_pow_right₀ (by norm_num) hl
  nlinarith

/-- A box of three by two cells at (10, 4). -/
example : (⟨(10, 4), (12, 5)⟩ : Rect).hi.1 < 2 * (⟨(10, 4), (12, 5)⟩ : Rect).lo.1 ∧ (0 : ℤ) ≤ (⟨(10, 4), (12, 5)⟩ : Rect).lo.1 ∧ coupledCells ⟨(10, 4), (12, 5)⟩ (fun _ _ => true) 1 (11, 5) = true := by decide

end Fub
