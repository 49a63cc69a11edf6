import Verif.Spec.GhostTiming
import Mathlib.Tactic.Ring
import Mathlib.Tactic.FieldSimp
import Mathlib.Tactic.Linarith
import Mathlib.Tactic.Positivity

/-!
# C186: ghost cells and wall reference states are those of the data of the step
-/

namespace Fub

section
variable {K I J C A : Type}

theorem refreshRefs_idem {X : Type} (cut : X → Bool) (gas : C → Bool) (wall : X → C → C) (d r : X → C) :
    refreshRefs cut gas wall d (refreshRefs cut gas wall d r) = refreshRefs cut gas wall d r := by
  funext x
  simp only [refreshRefs]
  split <;> rfl

theorem refreshLevel_idem (o : GOps K I J C A) (l : Nat) (x : GLevel K I J C) :
    o.refreshLevel l (o.refreshLevel l x) = o.refreshLevel l x := by
  simp only [GOps.refreshLevel, refreshRefs_idem]

/-- Filling ghost cells depends on the cells only. -/
theorem fillValue_congr (o : GOps K I J C A) (s t : GRun K I J C A) (l : Nat)
    (h : ∀ k, k ≤ l → l ≤ k + 1 → (s.lev k).data = (t.lev k).data) : o.fillValue s l = o.fillValue t l := by
  cases l with
  | zero => simp only [GOps.fillValue, h 0 le_rfl (by omega)]
  | succ l => simp only [GOps.fillValue, h l (by omega) (by omega), h (l + 1) le_rfl (by omega)]

theorem fillFrom_spec (o : GOps K I J C A) : ∀ (m l : Nat) (s : GRun K I J C A),
    (o.fillFrom m l s).n = s.n ∧ (∀ k, ((o.fillFrom m l s).lev k).data = (s.lev k).data) ∧
    (∀ k, (o.fillFrom m l s).lev k = if l ≤ k ∧ k < l + m then { s.lev k with ghost := o.fillValue s k } else s.lev k)
  | 0, l, s => by
    refine ⟨rfl, fun _ => rfl, fun k => ?_⟩
    have : ¬ (l ≤ k ∧ k < l + 0) := by omega
    simp only [this, if_false, GOps.fillFrom]
  | m + 1, l, s => by
    have hd : ∀ k, ((o.fillAt l s).lev k).data = (s.lev k).data := by
      intro k
      simp only [GOps.fillAt]
      split
      · next h => rw [h]
      · rfl
    obtain ⟨h1, h2, h3⟩ := fillFrom_spec o m (l + 1) (o.fillAt l s)
    refine ⟨h1, fun k => (h2 k).trans (hd k), fun k => ?_⟩
    rw [GOps.fillFrom, h3 k]
    have hv : o.fillValue (o.fillAt l s) k = o.fillValue s k := fillValue_congr o _ _ k (fun j _ _ => hd j)
    by_cases hk : k = l
    · subst hk
      have c1 : ¬ (k + 1 ≤ k ∧ k < k + 1 + m) := by omega
      have c2 : k ≤ k ∧ k < k + (m + 1) := by omega
      simp only [c1, c2, if_false, and_self, if_true]
      simp only [GOps.fillAt, if_true]
    · have hl : (o.fillAt l s).lev k = s.lev k := by simp only [GOps.fillAt, hk, if_false]
      rw [hv, hl]
      by_cases c : l + 1 ≤ k ∧ k < l + 1 + m
      · have c2 : l ≤ k ∧ k < l + (m + 1) := by omega
        simp only [c, c2, and_self, if_true]
      · have c2 : ¬ (l ≤ k ∧ k < l + (m + 1)) := by omega
        simp only [c, c2, if_false]

theorem fillAt_data (o : GOps K I J C A) (l k : Nat) (s : GRun K I J C A) : ((o.fillAt l s).lev k).data = (s.lev k).data := by
  simp only [GOps.fillAt]
  split
  · next h => rw [h]
  · rfl

/-- What a regrid in the preparation of level `l` leaves alone. -/
theorem regrid_spec [DecidableEq K] (o : GOps K I J C A) (l : Nat) (sub : Nat × Nat) (s : GRun K I J C A) (hl : l < s.n) (hm : s.n ≤ o.maxLevels) :
    l < (o.regrid l sub s).2 ∧ l < (o.regrid l sub s).1.n ∧ (o.regrid l sub s).1.n ≤ o.maxLevels ∧
    (∀ k, k < l → (o.regrid l sub s).1.lev k = s.lev k) ∧
    (∀ k, k < (o.regrid l sub s).2 → k < (o.regrid l sub s).1.n → k < s.n ∧
      ∃ t, (o.regrid l sub s).1.lev k = { s.lev k with regridTime := t }) ∧
    (∀ k, (o.regrid l sub s).2 ≤ k → k < (o.regrid l sub s).1.n → ((o.regrid l sub s).1.lev k).time = (s.lev l).time) := by
  have base : l < o.maxLevels ∧ l < s.n ∧ s.n ≤ o.maxLevels ∧ (∀ k, k < l → s.lev k = s.lev k) ∧
      (∀ k, k < o.maxLevels → k < s.n → k < s.n ∧ ∃ t, s.lev k = { s.lev k with regridTime := t }) ∧
      (∀ k, o.maxLevels ≤ k → k < s.n → (s.lev k).time = (s.lev l).time) :=
    ⟨by omega, hl, hm, fun _ _ => rfl, fun k _ h => ⟨h, (s.lev k).regridTime, rfl⟩, fun k h1 h2 => by omega⟩
  unfold GOps.regrid
  split
  · next hc =>
    split
    · exact base
    · refine ⟨by simp only; omega, by simp only; omega, hm, fun k hk => ?_, fun k _ hk => ⟨hk, ?_⟩, fun k h1 h2 => by simp only at h1 h2; omega⟩
      · have : ¬ l ≤ k := by omega
        simp only [this, if_false]
      · by_cases h : l ≤ k
        · exact ⟨(s.lev k).time, by simp only [h, if_true]⟩
        · exact ⟨(s.lev k).regridTime, by simp only [h, if_false]⟩
    · next g rest _ =>
      by_cases hf : min (l + 1 + g.skip) s.n < o.maxLevels
      · simp only [hf, if_true]
        refine ⟨by omega, by omega, by omega, fun k hk => ?_, fun k hk hn => ⟨by omega, ?_⟩, fun k hk _ => ?_⟩
        · have c1 : ¬ min (l + 1 + g.skip) s.n ≤ k := by omega
          have c2 : ¬ l ≤ k := by omega
          simp only [c1, c2, if_false]
        · have c1 : ¬ min (l + 1 + g.skip) s.n ≤ k := by omega
          by_cases h : l ≤ k
          · exact ⟨(s.lev k).time, by simp only [c1, h, if_false, if_true]⟩
          · exact ⟨(s.lev k).regridTime, by simp only [c1, h, if_false]⟩
        · simp only [hk, if_true]
      · simp only [hf, if_false]
        exact ⟨base.1, base.2.1, base.2.2.1, fun _ _ => trivial, base.2.2.2.2.1, base.2.2.2.2.2⟩
  · exact base

/-- What the preparation of level `l` does. -/
theorem ghost_pre_spec [DecidableEq K] (o : GOps K I J C A) (l : Nat) (sub : Nat × Nat) (s : GRun K I J C A) (hl : l < s.n) (hm : s.n ≤ o.maxLevels) :
    l < (o.pre l sub s).n ∧ (o.pre l sub s).n ≤ o.maxLevels ∧
    (∀ k, k < l → (o.pre l sub s).lev k = o.refreshLevel k (s.lev k)) ∧
    ((o.pre l sub s).lev l).data = (s.lev l).data ∧ ((o.pre l sub s).lev l).time = (s.lev l).time ∧
    ((o.pre l sub s).lev l).ref = (o.refreshLevel l (s.lev l)).ref ∧
    ((s.lev l).time = (s.lev 0).time → ((o.pre l sub s).lev l).ghost = (s.lev l).ghost ∧
      ((o.pre l sub s).lev l).gref = (o.refreshLevel l (s.lev l)).gref) ∧
    ((s.lev l).time ≠ (s.lev 0).time → o.Current (o.pre l sub s) l) ∧
    ((∀ k, l ≤ k → k < s.n → (s.lev k).time = (s.lev l).time) →
      ∀ k, l ≤ k → k < (o.pre l sub s).n → ((o.pre l sub s).lev k).time = (s.lev l).time) ∧
    ((∀ k, l ≤ k → k < s.n → o.Current s k) → ∀ k, l ≤ k → k < (o.pre l sub s).n → o.Current (o.pre l sub s) k) := by
  obtain ⟨r1, r2, r3, r4, r5, r6⟩ := regrid_spec o l sub (o.refreshAll s) hl hm
  unfold GOps.pre
  have hS : ∀ k, k < s.n → (o.refreshAll s).lev k = o.refreshLevel k (s.lev k) := fun k hk => by
    simp only [GOps.refreshAll, hk, if_true]
  generalize o.regrid l sub (o.refreshAll s) = r at r1 r2 r3 r4 r5 r6
  obtain ⟨t, f⟩ := r
  simp only at r1 r2 r3 r4 r5 r6
  have hf0 : ¬ f = 0 := by omega
  have hmax : max 1 f = f := by omega
  simp only [hf0, if_false, hmax]
  obtain ⟨q1, q2, q3⟩ := fillFrom_spec o (t.n - f) f t
  generalize o.fillFrom (t.n - f) f t = u at q1 q2 q3
  have hle : ∀ k, k ≤ l → u.lev k = t.lev k := fun k hk => by
    have c : ¬ (f ≤ k ∧ k < f + (t.n - f)) := by omega
    rw [q3 k]
    simp only [c, if_false]
  obtain ⟨_, tl, htl⟩ := r5 l r1 r2
  rw [hS l hl] at htl
  have ht0 : (t.lev 0).time = (s.lev 0).time := by
    obtain ⟨_, tl, h⟩ := r5 0 (by omega) (by omega)
    rw [h, hS 0 (by omega)]
    rfl
  have hul : u.lev l = { o.refreshLevel l (s.lev l) with regridTime := tl } := (hle l le_rfl).trans htl
  have hutime : (u.lev l).time = (s.lev l).time := by rw [hul]; rfl
  have hu0 : (u.lev 0).time = (s.lev 0).time := by rw [hle 0 (by omega), ht0]
  -- currency of the levels of u
  have hcur : (∀ k, l ≤ k → k < s.n → o.Current s k) → ∀ k, l ≤ k → k < u.n → o.Current u k := by
    intro hc k hk hn
    rw [q1] at hn
    have hv : o.fillValue u k = o.fillValue t k := fillValue_congr o _ _ k (fun j _ _ => q2 j)
    simp only [GOps.Current]
    rw [hv, q3 k]
    by_cases c : f ≤ k ∧ k < f + (t.n - f)
    · simp only [c, and_self, if_true]
    · simp only [c, if_false]
      have hkf : k < f := by omega
      obtain ⟨hks, tk, h⟩ := r5 k hkf hn
      have hv2 : o.fillValue t k = o.fillValue s k := by
        refine fillValue_congr o _ _ k (fun j hj _ => ?_)
        obtain ⟨hjs, tj, h⟩ := r5 j (by omega) (by omega)
        rw [h, hS j hjs]
        rfl
      rw [hv2, h, hS k hks]
      exact hc k hk hks
  have htimes : (∀ k, l ≤ k → k < s.n → (s.lev k).time = (s.lev l).time) →
      ∀ k, l ≤ k → k < u.n → (u.lev k).time = (s.lev l).time := by
    intro hc k hk hn
    rw [q1] at hn
    have : (u.lev k).time = (t.lev k).time := by
      rw [q3 k]
      split <;> rfl
    rw [this]
    by_cases hkf : k < f
    · obtain ⟨hks, tk, h⟩ := r5 k hkf hn
      rw [h, hS k hks]
      exact hc k hk hks
    · rw [r6 k (by omega) hn, hS l hl]
      rfl
  have hbelow : ∀ k, k < l → u.lev k = o.refreshLevel k (s.lev k) := fun k hk => by
    rw [hle k (by omega), r4 k hk, hS k (by omega)]
  by_cases ht : (s.lev l).time = (s.lev 0).time
  · have c : ¬ (l < f ∧ (u.lev l).time ≠ (u.lev 0).time) := by rw [hutime, hu0]; simp [ht]
    simp only [c, if_false]
    refine ⟨by omega, by omega, hbelow, by rw [hul]; rfl, hutime, by rw [hul], fun _ => ⟨by rw [hul]; rfl, by rw [hul]⟩,
      fun h => absurd ht h, htimes, hcur⟩
  · have c : l < f ∧ (u.lev l).time ≠ (u.lev 0).time := by rw [hutime, hu0]; exact ⟨r1, ht⟩
    rw [if_pos c]
    have hother : ∀ k, k ≠ l → (o.fillAt l u).lev k = u.lev k := fun k hk => by simp only [GOps.fillAt, hk, if_false]
    have hself : (o.fillAt l u).lev l = { u.lev l with ghost := o.fillValue u l } := by simp only [GOps.fillAt, if_true]
    have hvals : ∀ k, o.fillValue (o.fillAt l u) k = o.fillValue u k := fun k =>
      fillValue_congr o _ _ k (fun j _ _ => fillAt_data o l j u)
    have hcl : o.Current (o.fillAt l u) l := by
      simp only [GOps.Current]
      rw [hvals, hself]
    refine ⟨by rw [show (o.fillAt l u).n = u.n from rfl]; omega, by rw [show (o.fillAt l u).n = u.n from rfl]; omega,
      fun k hk => by rw [hother k (by omega)]; exact hbelow k hk, by rw [hself]; simp only; rw [hul]; rfl, by rw [hself]; exact hutime,
      by rw [hself]; simp only; rw [hul], fun h => absurd h ht, fun _ => hcl, fun hc k hk hn => ?_, fun hc k hk hn => ?_⟩
    · by_cases h : k = l
      · rw [h, hself]
        exact hutime
      · rw [hother k h]
        exact htimes hc k hk hn
    · by_cases h : k = l
      · rw [h]
        exact hcl
      · simp only [GOps.Current]
        rw [hvals, hother k h]
        exact hcur hc k hk hn

/-! ### One call of `AdvanceLevel` -/

/-- The level is ready to be advanced: its ghost cells are current, its reference states are those of its cells, and those of
the ghost cells too unless it is the finest level in a later subcycle. -/
structure GOps.Good [DecidableEq K] (o : GOps K I J C A) (s : GRun K I J C A) (l : Nat) : Prop where
  cur : o.Current s l
  ref : (o.refreshLevel l (s.lev l)).ref = (s.lev l).ref
  gref : ((s.lev l).time = (s.lev 0).time ∨ l + 1 < s.n) → (o.refreshLevel l (s.lev l)).gref = (s.lev l).gref

variable [Field K] [LinearOrder K] [IsStrictOrderedRing K]

/-- The program that does something before each level step. -/
def fixSys (o : GOps K I J C A) (fix : Nat → GRun K I J C A → GRun K I J C A) : LevelSys K (GRun K I J C A) :=
  { ghostSys o with
    adv := fun l dt _ s => o.adv l dt (fix l s) }

/-- The situation in which `AdvanceLevel(l)` is called. -/
structure GOps.CallOk (o : GOps K I J C A) (s : GRun K I J C A) (l : Nat) : Prop where
  pos : l < s.n
  max : s.n ≤ o.maxLevels
  time : ∀ k, l ≤ k → k < s.n → (s.lev k).time = (s.lev l).time
  le : (s.lev 0).time ≤ (s.lev l).time
  cur : (s.lev l).time = (s.lev 0).time → ∀ k, l ≤ k → k < s.n → o.Current s k

/-- The result of `AdvanceLevel(l)`, repeated `m` times with step size `dt`. -/
structure GOps.CallRes (o : GOps K I J C A) (s : GRun K I J C A) (l m : Nat) (dt : K) (r : GRun K I J C A × Option (StepErr K)) : Prop where
  pos : l < r.1.n
  max : r.1.n ≤ o.maxLevels
  below : ∀ k, k < l → r.1.lev k = if m = 0 then s.lev k else o.refreshLevel k (s.lev k)
  time : r.2 = none → ∀ k, l ≤ k → k < r.1.n → (r.1.lev k).time = (s.lev l).time + m * dt

theorem forSub_call (o : GOps K I J C A) (l : Nat) (hl : 0 < l) (dt : K) (hdt : 0 < dt) (f g : Nat → GRun K I J C A → GRun K I J C A × Option (StepErr K))
    (h : ∀ r s, o.CallOk s l → g r s = f r s ∧ o.CallRes s l 1 dt (f r s)) :
    ∀ (m r : Nat) (s : GRun K I J C A), o.CallOk s l → forSub g m r s = forSub f m r s ∧ o.CallRes s l m dt (forSub f m r s)
  | 0, r, s, hs => ⟨rfl, hs.pos, hs.max, fun k _ => by simp [forSub], fun _ k h1 h2 => by
      simp only [forSub] at *
      simp [hs.time k h1 h2]⟩
  | m + 1, r, s, hs => by
    obtain ⟨h1, h2⟩ := h r s hs
    simp only [forSub, h1]
    generalize f r s = q at h2
    obtain ⟨t, e⟩ := q
    cases e with
    | some e =>
      refine ⟨rfl, h2.pos, h2.max, fun k hk => ?_, fun h => by simp [andThen] at h⟩
      simpa [andThen] using h2.below k hk
    | none =>
      have ht := h2.time rfl
      have hb := h2.below
      have h0 : (t.lev 0).time = (s.lev 0).time := by
        rw [hb 0 hl]
        rfl
      have hp := h2.pos
      have hok : o.CallOk t l := by
        refine ⟨hp, h2.max, fun k h1 h2 => ?_, ?_, fun hc => ?_⟩
        · rw [ht k h1 h2, ht l le_rfl hp]
        · rw [h0, ht l le_rfl hp]
          have := hs.le
          push_cast
          linarith
        · rw [h0, ht l le_rfl hp] at hc
          have := hs.le
          push_cast at hc
          linarith
      obtain ⟨e1, e2⟩ := forSub_call o l hl dt hdt f g h m (r + 1) t hok
      simp only [andThen]
      refine ⟨e1, e2.pos, e2.max, fun k hk => ?_, fun hn k h1 h2 => ?_⟩
      · rw [e2.below k hk, hb k hk]
        simp only [one_ne_zero, if_false, Nat.succ_ne_zero]
        split
        · rfl
        · exact refreshLevel_idem o k _
      · rw [e2.time hn k h1 h2, ht l le_rfl hp]
        push_cast
        ring

/-- `AdvanceLevel` after the finer levels have been advanced. -/
def levelTail (B : LevelSys K (GRun K I J C A)) (l : Nat) (dt : K) (sub : Nat × Nat) (s : GRun K I J C A) : GRun K I J C A × Option (StepErr K) :=
  andThen (scaleRes B.ratio (B.adv l dt sub s)) fun s =>
    let s := if B.levelExists s (l + 1) then B.corr (l + 1) l dt s else s
    let s := if B.levelExists s (l + 1) then B.complete l dt (B.coarsen (l + 1) l s) else s
    let s := B.copyBack l s
    scaleRes B.ratio (B.post l dt sub s)

/-- The part of `AdvanceLevel` that advances the finer levels. -/
def levelFiner (B : LevelSys K (GRun K I J C A)) (fuel l : Nat) (dt : K) (s : GRun K I J C A) : GRun K I J C A × Option (StepErr K) :=
  if B.levelExists s (l + 1) then
    scaleRes B.ratio (forSub (fun r s => advanceLevel B fuel (l + 1) (dt / (B.ratio (l + 1) : K)) (r, B.ratio (l + 1)) s) (B.ratio (l + 1)) 0 (B.reset (l + 1) l s))
  else (s, none)

omit [IsStrictOrderedRing K] in
theorem advanceLevel_parts (B : LevelSys K (GRun K I J C A)) (fuel l : Nat) (dt : K) (sub : Nat × Nat) (s : GRun K I J C A) :
    advanceLevel B (fuel + 1) l dt sub s = andThen (levelFiner B fuel l dt (B.pre l dt sub s)) (fun s => levelTail B l dt sub s) := rfl

/-- An operation that changes nothing but cells and ghost cells of level `l`. -/
def OnlyLevel (l : Nat) (s t : GRun K I J C A) : Prop :=
  t.n = s.n ∧ (∀ k, k ≠ l → t.lev k = s.lev k) ∧ (t.lev l).time = (s.lev l).time

omit [Field K] [LinearOrder K] [IsStrictOrderedRing K] in
theorem OnlyLevel.trans {l : Nat} {s t u : GRun K I J C A} (h : OnlyLevel l s t) (g : OnlyLevel l t u) : OnlyLevel l s u :=
  ⟨g.1.trans h.1, fun k hk => (g.2.1 k hk).trans (h.2.1 k hk), g.2.2.trans h.2.2⟩

omit [Field K] [LinearOrder K] [IsStrictOrderedRing K] in
theorem setData_only (s : GRun K I J C A) (l : Nat) (d : I → C) : OnlyLevel l s (s.setData l d) :=
  ⟨rfl, fun k hk => by simp only [GRun.setData, hk, if_false], by simp only [GRun.setData, if_true]⟩

omit [Field K] [LinearOrder K] [IsStrictOrderedRing K] in
theorem completeAt_only (o : GOps K I J C A) (s : GRun K I J C A) (l : Nat) : OnlyLevel l s (o.completeAt l s) :=
  ⟨rfl, fun k hk => by simp only [GOps.completeAt, hk, if_false], by simp only [GOps.completeAt, if_true]⟩

omit [Field K] [LinearOrder K] [IsStrictOrderedRing K] in
theorem adv_only (o : GOps K I J C A) (s : GRun K I J C A) (l : Nat) (dt : K) : OnlyLevel l s (o.adv l dt s).1 :=
  ⟨rfl, fun k hk => by simp only [GOps.adv, hk, if_false], by simp only [GOps.adv, if_true]⟩

/-- Flux correction, coarsening and completion of level `l` in `AdvanceLevel`. -/
def levelSync (B : LevelSys K (GRun K I J C A)) (l : Nat) (dt : K) (s : GRun K I J C A) : GRun K I J C A :=
  let s := if B.levelExists s (l + 1) then B.corr (l + 1) l dt s else s
  if B.levelExists s (l + 1) then B.complete l dt (B.coarsen (l + 1) l s) else s

omit [IsStrictOrderedRing K] in
theorem levelSync_only (o : GOps K I J C A) (l : Nat) (dt : K) (s : GRun K I J C A) : OnlyLevel l s (levelSync (ghostSys o) l dt s) := by
  have h1 : OnlyLevel l s (if (ghostSys o).levelExists s (l + 1) then (ghostSys o).corr (l + 1) l dt s else s) := by
    split
    · exact setData_only _ _ _
    · exact ⟨rfl, fun _ _ => rfl, rfl⟩
  unfold levelSync
  refine OnlyLevel.trans h1 ?_
  generalize (if (ghostSys o).levelExists s (l + 1) then (ghostSys o).corr (l + 1) l dt s else s) = t
  show OnlyLevel l t (if (ghostSys o).levelExists t (l + 1) then _ else t)
  split
  · exact (setData_only _ _ _).trans (completeAt_only _ _ _)
  · exact ⟨rfl, fun _ _ => rfl, rfl⟩

omit [IsStrictOrderedRing K] in
theorem levelTail_eq (o : GOps K I J C A) (l : Nat) (dt : K) (sub : Nat × Nat) (s : GRun K I J C A) :
    levelTail (ghostSys o) l dt sub s =
      andThen (scaleRes o.ratio (o.adv l dt s)) (fun t => ((levelSync (ghostSys o) l dt t).post l dt, none)) := rfl

omit [IsStrictOrderedRing K] in
theorem levelTail_spec (o : GOps K I J C A) (l : Nat) (dt : K) (sub : Nat × Nat) (s : GRun K I J C A) :
    (levelTail (ghostSys o) l dt sub s).1.n = s.n ∧
    (∀ k, k ≠ l → (levelTail (ghostSys o) l dt sub s).1.lev k = s.lev k) ∧
    ((levelTail (ghostSys o) l dt sub s).2 = none → ((levelTail (ghostSys o) l dt sub s).1.lev l).time = (s.lev l).time + dt) := by
  have h1 := adv_only o s l dt
  rw [levelTail_eq]
  simp only [scaleRes, andThen]
  cases h : (o.adv l dt s).2 with
  | some e => exact ⟨h1.1, h1.2.1, fun h => by simp at h⟩
  | none =>
    simp only [Option.map_none]
    generalize (o.adv l dt s).1 = t at h1
    have h3 := h1.trans (levelSync_only o l dt t)
    generalize levelSync (ghostSys o) l dt t = v at h3
    refine ⟨h3.1, fun k hk => ?_, fun _ => ?_⟩
    · simp only [GRun.post, hk, if_false]
      exact h3.2.1 k hk
    · simp only [GRun.post, if_true, h3.2.2]

theorem ghost_call (o : GOps K I J C A) (hr : ∀ l, 0 < o.ratio l) (fix : Nat → GRun K I J C A → GRun K I J C A)
    (hfix : ∀ l s, o.Good s l → fix l s = s) :
    ∀ (fuel l : Nat) (dt : K) (sub : Nat × Nat) (s : GRun K I J C A), 0 < dt → o.CallOk s l → o.maxLevels ≤ l + fuel →
      advanceLevel (fixSys o fix) fuel l dt sub s = advanceLevel (ghostSys o) fuel l dt sub s ∧
      o.CallRes s l 1 dt (advanceLevel (ghostSys o) fuel l dt sub s)
  | 0, l, dt, sub, s, hdt, hs, hm => by
    have := hs.pos
    have := hs.max
    omega
  | fuel + 1, l, dt, sub, s, hdt, hs, hm => by
    obtain ⟨p1, p2, p3, p4, p5, p6, p7, p8, p9, p10⟩ := ghost_pre_spec o l sub s hs.pos hs.max
    have hT := p9 hs.time
    have hp0 : ((o.pre l sub s).lev 0).time = (s.lev 0).time := by
      rcases Nat.eq_zero_or_pos l with h | h
      · subst h
        exact p5
      · rw [p3 0 h]
        rfl
    -- level l after the preparation
    have hcurl : o.Current (o.pre l sub s) l := by
      by_cases c : (s.lev l).time = (s.lev 0).time
      · exact p10 (hs.cur c) l le_rfl p1
      · exact p8 c
    have hgr0 : (s.lev l).time = (s.lev 0).time → (o.refreshLevel l ((o.pre l sub s).lev l)).gref = ((o.pre l sub s).lev l).gref := by
      intro c
      obtain ⟨g1, g2⟩ := p7 c
      simp only [GOps.refreshLevel] at g2 ⊢
      rw [g1, g2, refreshRefs_idem]
    have hrf : (o.refreshLevel l ((o.pre l sub s).lev l)).ref = ((o.pre l sub s).lev l).ref := by
      simp only [GOps.refreshLevel] at p6 ⊢
      rw [p4, p6, refreshRefs_idem]
    have hcf : (s.lev l).time = (s.lev 0).time → ∀ k, l ≤ k → k < (o.pre l sub s).n → o.Current (o.pre l sub s) k := fun c => p10 (hs.cur c)
    rw [advanceLevel_parts, advanceLevel_parts]
    change andThen (levelFiner (fixSys o fix) fuel l dt (o.pre l sub s)) _ = andThen (levelFiner (ghostSys o) fuel l dt (o.pre l sub s)) _ ∧
      o.CallRes s l 1 dt (andThen (levelFiner (ghostSys o) fuel l dt (o.pre l sub s)) _)
    clear p6 p7 p8 p9 p10 p4
    generalize o.pre l sub s = u at *
    -- the finer levels
    have hfin : levelFiner (fixSys o fix) fuel l dt u = levelFiner (ghostSys o) fuel l dt u ∧
        (levelFiner (ghostSys o) fuel l dt u).1.n ≤ o.maxLevels ∧ l < (levelFiner (ghostSys o) fuel l dt u).1.n ∧
        (∀ k, k ≤ l → (levelFiner (ghostSys o) fuel l dt u).1.lev k = if l + 1 < u.n then o.refreshLevel k (u.lev k) else u.lev k) ∧
        (l + 1 < (levelFiner (ghostSys o) fuel l dt u).1.n → l + 1 < u.n) ∧
        ((levelFiner (ghostSys o) fuel l dt u).2 = none → ∀ k, l < k → k < (levelFiner (ghostSys o) fuel l dt u).1.n →
          ((levelFiner (ghostSys o) fuel l dt u).1.lev k).time = (s.lev l).time + dt) := by
      by_cases c : l + 1 < u.n
      · have hn := hr (l + 1)
        have hnK : (0 : K) < (o.ratio (l + 1) : K) := by exact_mod_cast hn
        have hd : 0 < dt / (o.ratio (l + 1) : K) := div_pos hdt hnK
        have hok : o.CallOk ({ u with aux := o.clear (l + 1) u.aux } : GRun K I J C A) (l + 1) := by
          refine ⟨c, p2, fun k h1 h2 => ?_, ?_, fun h k h1 h2 => ?_⟩
          · exact (hT k (by omega) h2).trans (hT (l + 1) (by omega) c).symm
          · show (u.lev 0).time ≤ (u.lev (l + 1)).time
            rw [hp0, hT (l + 1) (by omega) c]
            exact hs.le
          · have h' : (u.lev (l + 1)).time = (u.lev 0).time := h
            rw [hp0, hT (l + 1) (by omega) c] at h'
            have := hcf h' k (by omega) h2
            exact this.trans (fillValue_congr o _ _ k (fun _ _ _ => rfl))
        have ih := forSub_call o (l + 1) (by omega) (dt / (o.ratio (l + 1) : K)) hd
          (fun r s => advanceLevel (ghostSys o) fuel (l + 1) (dt / (o.ratio (l + 1) : K)) (r, o.ratio (l + 1)) s)
          (fun r s => advanceLevel (fixSys o fix) fuel (l + 1) (dt / (o.ratio (l + 1) : K)) (r, o.ratio (l + 1)) s)
          (fun r t ht => ghost_call o hr fix hfix fuel (l + 1) _ _ t hd ht (by omega)) (o.ratio (l + 1)) 0 _ hok
        obtain ⟨e1, e2⟩ := ih
        have ec : decide (l + 1 < u.n) = true := by simp only [c, decide_true]
        have hL : levelFiner (ghostSys o) fuel l dt u = scaleRes o.ratio (forSub
            (fun r s => advanceLevel (ghostSys o) fuel (l + 1) (dt / (o.ratio (l + 1) : K)) (r, o.ratio (l + 1)) s) (o.ratio (l + 1)) 0
            { u with aux := o.clear (l + 1) u.aux }) := by
          simp only [levelFiner]
          exact if_pos ec
        have hL' : levelFiner (fixSys o fix) fuel l dt u = scaleRes o.ratio (forSub
            (fun r s => advanceLevel (fixSys o fix) fuel (l + 1) (dt / (o.ratio (l + 1) : K)) (r, o.ratio (l + 1)) s) (o.ratio (l + 1)) 0
            { u with aux := o.clear (l + 1) u.aux }) := by
          simp only [levelFiner]
          exact if_pos ec
        rw [hL, hL', e1]
        refine ⟨rfl, e2.max, by have := e2.pos; simp only [scaleRes]; omega, fun k hk => ?_, fun _ => c, fun he k h1 h2 => ?_⟩
        · simp only [scaleRes, c, if_true]
          rw [e2.below k (by omega)]
          have : ¬ o.ratio (l + 1) = 0 := by omega
          simp only [this, if_false]
        · have he' := by
            simp only [scaleRes, Option.map_eq_none_iff] at he
            exact he
          simp only [scaleRes] at h2 ⊢
          rw [e2.time he' k (by omega) h2]
          show (u.lev (l + 1)).time + _ = _
          rw [hT (l + 1) (by omega) c]
          field_simp
      · have ec : ¬ decide (l + 1 < u.n) = true := by simp only [c, decide_false]; decide
        have hL : levelFiner (ghostSys o) fuel l dt u = (u, none) := by
          simp only [levelFiner]
          exact if_neg ec
        have hL' : levelFiner (fixSys o fix) fuel l dt u = (u, none) := by
          simp only [levelFiner]
          exact if_neg ec
        rw [hL, hL']
        exact ⟨rfl, p2, p1, fun k hk => by simp only [c, if_false], fun h => h, fun _ k h1 h2 => by simp only at h2; omega⟩
    obtain ⟨f1, f2, f3, f4, f5, f6⟩ := hfin
    rw [f1]
    generalize levelFiner (ghostSys o) fuel l dt u = q at f2 f3 f4 f5 f6
    obtain ⟨t, e⟩ := q
    simp only at f2 f3 f4 f5 f6
    have hbelow : ∀ k, k < l → t.lev k = o.refreshLevel k (s.lev k) := by
      intro k hk
      rw [f4 k (by omega), p3 k hk]
      split
      · exact refreshLevel_idem o k _
      · rfl
    cases e with
    | some e =>
      refine ⟨rfl, f3, f2, fun k hk => ?_, fun h => by simp [andThen] at h⟩
      simp only [andThen, one_ne_zero, if_false]
      exact hbelow k hk
    | none =>
      have hdat : ∀ k, k ≤ l → (t.lev k).data = (u.lev k).data ∧ (t.lev k).ghost = (u.lev k).ghost ∧ (t.lev k).time = (u.lev k).time := by
        intro k hk
        rw [f4 k hk]
        split <;> exact ⟨rfl, rfl, rfl⟩
      have hgood : o.Good t l := by
        refine ⟨?_, ?_, fun h => ?_⟩
        · simp only [GOps.Current]
          rw [(hdat l le_rfl).2.1, fillValue_congr o t u l (fun k h1 _ => (hdat k h1).1)]
          exact hcurl
        · rw [f4 l le_rfl]
          split
          · rw [refreshLevel_idem]
          · exact hrf
        · rw [f4 l le_rfl]
          split
          · rw [refreshLevel_idem]
          · next hc =>
            refine hgr0 ?_
            rcases h with h | h
            · rw [(hdat l le_rfl).2.2, (hdat 0 (by omega)).2.2, p5, hp0] at h
              exact h
            · exact absurd (f5 h) hc
      have htail : levelTail (fixSys o fix) l dt sub t = levelTail (ghostSys o) l dt sub t := by
        have : (fixSys o fix).adv l dt sub t = (ghostSys o).adv l dt sub t := by
          simp only [fixSys, hfix l t hgood]
          rfl
        simp only [levelTail, this]
        rfl
      obtain ⟨t1, t2, t3⟩ := levelTail_spec o l dt sub t
      simp only [andThen]
      refine ⟨htail, by omega, by omega, fun k hk => ?_, fun hn k h1 h2 => ?_⟩
      · rw [t2 k (by omega)]
        simp only [one_ne_zero, if_false]
        exact hbelow k hk
      · rw [t1] at h2
        by_cases c : k = l
        · subst c
          rw [t3 hn, (hdat k le_rfl).2.2, p5]
          push_cast
          ring
        · rw [t2 k c, f6 rfl k (by omega) h2]
          push_cast
          ring

/-! ### Coarse steps -/

omit [IsStrictOrderedRing K] in
theorem fillAllTwo_eq (o : GOps K I J C A) (fix : Nat → GRun K I J C A → GRun K I J C A) : ∀ (fuel l : Nat) (s : GRun K I J C A),
    fillAllTwo (fixSys o fix) fuel l s = o.fillFrom (min fuel (s.n - l)) l s
  | 0, l, s => by simp [fillAllTwo, GOps.fillFrom]
  | fuel + 1, l, s => by
    have hE : (fixSys o fix).levelExists s l = decide (l < s.n) := rfl
    rw [fillAllTwo, hE]
    by_cases c : l < s.n
    · simp only [c, decide_true, if_true]
      rw [fillAllTwo_eq o fix fuel]
      have : min (fuel + 1) (s.n - l) = min fuel (s.n - (l + 1)) + 1 := by omega
      rw [this]
      rfl
    · have : min (fuel + 1) (s.n - l) = 0 := by omega
      simp only [c, decide_false, this, GOps.fillFrom]
      rfl

theorem Synced_call {o : GOps K I J C A} {s : GRun K I J C A} (h : o.Synced s) : o.CallOk s 0 :=
  ⟨h.pos, h.max, fun k _ hk => h.time k hk, le_rfl, fun _ k _ hk => h.current k hk⟩

/-- A coarse step with `regrid_frequency = 1` gives the same with the fixed system, and afterwards everything is current again. -/
theorem ghost_hierarchy (o : GOps K I J C A) (hr : ∀ l, 0 < o.ratio l) (fix : Nat → GRun K I J C A → GRun K I J C A)
    (hfix : ∀ l s, o.Good s l → fix l s = s) (dt : K) (hdt : 0 < dt) (s : GRun K I J C A) (hs : o.Synced s) :
    advanceHierarchy (fixSys o fix) o.maxLevels 1 dt s = advanceHierarchy (ghostSys o) o.maxLevels 1 dt s ∧
    (∀ t, advanceHierarchy (ghostSys o) o.maxLevels 1 dt s = some (t, none) → o.Synced t ∧ (t.lev 0).time = (s.lev 0).time + dt) := by
  obtain ⟨h1, h2⟩ := ghost_call o hr fix hfix o.maxLevels 0 dt (0, 1) s hdt (Synced_call hs) (by omega)
  have hid : fixSys o (fun _ s => s) = ghostSys o := rfl
  simp only [advanceHierarchy, h1]
  generalize advanceLevel (ghostSys o) o.maxLevels 0 dt (0, 1) s = r at h2
  obtain ⟨u, e⟩ := r
  cases e with
  | some e => exact ⟨rfl, fun t h => by simp at h⟩
  | none =>
    have ht := h2.time rfl
    have hp := h2.pos
    have hm := h2.max
    simp only at ht hp hm
    have hc : ∀ c : Int, c.tmod 1 = 0 := fun c => Int.tmod_one c
    simp only [one_ne_zero, if_false, hc, if_true]
    have hF : ∀ f : Nat → GRun K I J C A → GRun K I J C A,
        fillAllTwo (fixSys o f) o.maxLevels 1 ((fixSys o f).fillSingle 0 u) = o.fillFrom (u.n - 1) 1 (o.fillAt 0 u) := by
      intro f
      rw [fillAllTwo_eq]
      show o.fillFrom (min o.maxLevels (u.n - 1)) 1 (o.fillAt 0 u) = _
      rw [show min o.maxLevels (u.n - 1) = u.n - 1 by omega]
    have hG := hF (fun _ s => s)
    rw [hid] at hG
    rw [hF fix, hG]
    refine ⟨rfl, fun t h => ?_⟩
    simp only [Option.some.injEq, Prod.mk.injEq, and_true] at h
    subst h
    obtain ⟨q1, q2, q3⟩ := fillFrom_spec o (u.n - 1) 1 (o.fillAt 0 u)
    have htime : ∀ k, k < u.n → ((o.fillFrom (u.n - 1) 1 (o.fillAt 0 u)).lev k).time = (s.lev 0).time + dt := by
      intro k hk
      have e1 : ((o.fillFrom (u.n - 1) 1 (o.fillAt 0 u)).lev k).time = ((o.fillAt 0 u).lev k).time := by
        rw [q3 k]
        split <;> rfl
      have e2 : ((o.fillAt 0 u).lev k).time = (u.lev k).time := by
        simp only [GOps.fillAt]
        split
        · next h => rw [h]
        · rfl
      rw [e1, e2, ht k (by omega) hk]
      push_cast
      ring
    have hv : ∀ k, o.fillValue (o.fillFrom (u.n - 1) 1 (o.fillAt 0 u)) k = o.fillValue u k := fun k =>
      fillValue_congr o _ _ k (fun j _ _ => (q2 j).trans (fillAt_data o 0 j u))
    have hv0 : ∀ k, o.fillValue (o.fillAt 0 u) k = o.fillValue u k := fun k =>
      fillValue_congr o _ _ k (fun j _ _ => fillAt_data o 0 j u)
    have hn : (o.fillFrom (u.n - 1) 1 (o.fillAt 0 u)).n = u.n := q1
    refine ⟨⟨by omega, by omega, fun k hk => ?_, fun k hk => ?_⟩, htime 0 hp⟩
    · rw [hn] at hk
      rw [htime k hk, htime 0 hp]
    · rw [hn] at hk
      simp only [GOps.Current]
      rw [hv, q3 k]
      by_cases c : k = 0
      · subst c
        have : ¬ (1 ≤ 0 ∧ 0 < 1 + (u.n - 1)) := by omega
        simp only [this, if_false]
        simp only [GOps.fillAt, if_true]
      · have : 1 ≤ k ∧ k < 1 + (u.n - 1) := by omega
        simp only [this, and_self, if_true]
        exact hv0 k

theorem ghost_run (o : GOps K I J C A) (hr : ∀ l, 0 < o.ratio l) (fix : Nat → GRun K I J C A → GRun K I J C A)
    (hfix : ∀ l s, o.Good s l → fix l s = s) : ∀ (dts : List K) (s : GRun K I J C A), (∀ dt ∈ dts, 0 < dt) → o.Synced s →
    runSteps (fixSys o fix) o.maxLevels 1 dts s = runSteps (ghostSys o) o.maxLevels 1 dts s ∧
    (∀ t, runSteps (ghostSys o) o.maxLevels 1 dts s = some (t, none) → o.Synced t ∧ (t.lev 0).time = (s.lev 0).time + dts.sum)
  | [], s, _, hs => ⟨rfl, fun t h => by
      simp only [runSteps, Option.some.injEq, Prod.mk.injEq, and_true] at h
      subst h
      exact ⟨hs, by simp⟩⟩
  | dt :: dts, s, hd, hs => by
    obtain ⟨h1, h2⟩ := ghost_hierarchy o hr fix hfix dt (hd dt (by simp)) s hs
    simp only [runSteps, h1]
    generalize hq : advanceHierarchy (ghostSys o) o.maxLevels 1 dt s = q at h2
    cases q with
    | none => exact ⟨rfl, fun t h => by simp at h⟩
    | some q =>
      obtain ⟨u, e⟩ := q
      cases e with
      | some e => exact ⟨rfl, fun t h => by simp at h⟩
      | none =>
        obtain ⟨hu, ht⟩ := h2 u rfl
        obtain ⟨i1, i2⟩ := ghost_run o hr fix hfix dts u (fun x hx => hd x (by simp [hx])) hu
        refine ⟨i1, fun t h => ?_⟩
        obtain ⟨j1, j2⟩ := i2 t h
        refine ⟨j1, ?_⟩
        rw [j2, ht]
        simp only [List.sum_cons]
        ring

/-- **C186 (subcycling, ghost cells).** With `regrid_frequency = 1`, for every method, boundary condition, number of levels, refinement ratios, history of regrids and
sequence of step sizes, also if a step fails: whenever a level is advanced, its ghost cells are already what filling them at that moment would give. Filling them
immediately before each level step computes exactly the same. -/
theorem ghosts_current (o : GOps K I J C A) (hr : ∀ l, 0 < o.ratio l) (dts : List K) (hd : ∀ dt ∈ dts, 0 < dt) (s : GRun K I J C A) (hs : o.Synced s) :
    runSteps (withFreshGhosts o (ghostSys o)) o.maxLevels 1 dts s = runSteps (ghostSys o) o.maxLevels 1 dts s := by
  refine (ghost_run o hr (fun l s => o.fillAt l s) (fun l s h => ?_) dts s hd hs).1
  simp only [GOps.fillAt]
  rw [← h.cur]
  have : (fun k => if k = l then ({ s.lev l with ghost := (s.lev l).ghost } : GLevel K I J C) else s.lev k) = s.lev := by
    funext k
    split
    · next e => rw [e]
    · rfl
  rw [this]

/-- **C186 (between the steps).** After every completed sequence of coarse steps all levels have reached the sum of the step sizes and all their ghost cells are current. -/
theorem ghosts_synced (o : GOps K I J C A) (hr : ∀ l, 0 < o.ratio l) (dts : List K) (hd : ∀ dt ∈ dts, 0 < dt) (s t : GRun K I J C A) (hs : o.Synced s)
    (h : runSteps (ghostSys o) o.maxLevels 1 dts s = some (t, none)) :
    (∀ k, k < t.n → (t.lev k).time = (s.lev 0).time + dts.sum ∧ (t.lev k).ghost = o.fillValue t k) := by
  obtain ⟨h1, h2⟩ := (ghost_run o hr (fun _ s => s) (fun _ _ _ => rfl) dts s hd hs).2 t h
  exact fun k hk => ⟨(h1.time k hk).trans h2, h1.current k hk⟩

/-- **C186 (wall reference states).** Whenever a level is advanced, the reference states at the walls in its own cells are those of its present states, and so are those in its
ghost cells if the level is at the time of the coarsest level or is not the finest one: computing them immediately before each level step computes
exactly the same. -/
theorem refs_current_partial (o : GOps K I J C A) (hr : ∀ l, 0 < o.ratio l) (dts : List K) (hd : ∀ dt ∈ dts, 0 < dt) (s : GRun K I J C A) (hs : o.Synced s) :
    runSteps (withFreshRefs o notLateFinest (ghostSys o)) o.maxLevels 1 dts s = runSteps (ghostSys o) o.maxLevels 1 dts s := by
  refine (ghost_run o hr (fun l s => freshRefsAt o notLateFinest l s) (fun l s h => ?_) dts s hd hs).1
  simp only [freshRefsAt]
  have : (fun k => if k = l then
      (if notLateFinest l s = true then o.refreshLevel l (s.lev l) else { s.lev l with ref := (o.refreshLevel l (s.lev l)).ref })
      else s.lev k) = s.lev := by
    funext k
    split
    · next e =>
      subst e
      split
      · next c =>
        have h2 := h.gref (by simpa [notLateFinest] using c)
        have h1 := h.ref
        simp only [GOps.refreshLevel] at h1 h2 ⊢
        rw [h1, h2]
      · rw [h.ref]
    · rfl
  rw [this]

/-! ### Without subcycling -/

/-- The level is ready to be advanced without subcycling: only the ghost cells of level 0 need to be current. -/
structure GOps.NscGood (o : GOps K I J C A) (s : GRun K I J C A) (l : Nat) : Prop where
  cur : l = 0 → o.Current s 0
  ref : o.refreshLevel l (s.lev l) = s.lev l

/-- The situation in which `NoSubcycleSolver::AdvanceLevel(l)` is called. -/
structure GOps.NscOk (o : GOps K I J C A) (s : GRun K I J C A) (l : Nat) : Prop where
  pos : l < s.n
  max : s.n ≤ o.maxLevels
  time : ∀ k, l ≤ k → k < s.n → (s.lev k).time = (s.lev 0).time
  cur : l = 0 → o.Current s 0

/-- The result of `NoSubcycleSolver::AdvanceLevel(l)`. -/
structure GOps.NscRes (o : GOps K I J C A) (s : GRun K I J C A) (l : Nat) (dt : K) (r : GRun K I J C A × Option (StepErr K)) : Prop where
  pos : l < r.1.n
  max : r.1.n ≤ o.maxLevels
  below : ∀ k, k < l → r.1.lev k = o.refreshLevel k (s.lev k)
  time : r.2 = none → ∀ k, l ≤ k → k < r.1.n → (r.1.lev k).time = (s.lev 0).time + dt
  cur : r.2 = none → l = 0 → o.Current r.1 0

/-- `NoSubcycleSolver::AdvanceLevel` after the finer levels have been advanced. -/
def nscTail (B : LevelSys K (GRun K I J C A)) (l : Nat) (dt : K) (s : GRun K I J C A) : GRun K I J C A × Option (StepErr K) :=
  andThen (B.adv l dt (0, 1) s) fun s =>
    let s := if B.levelExists s (l + 1) then B.complete l dt (B.coarsen (l + 1) l (B.corr (l + 1) l dt s)) else s
    let s := B.copyBack l s
    let s := if l = 0 then B.fillSingle l s else B.fillTwo l (l - 1) s
    B.post l dt (0, 1) s

/-- The part of `NoSubcycleSolver::AdvanceLevel` that advances the finer levels. -/
def nscFiner (B : LevelSys K (GRun K I J C A)) (fuel l : Nat) (dt : K) (s : GRun K I J C A) : GRun K I J C A × Option (StepErr K) :=
  if B.levelExists s (l + 1) then nscAdvanceLevel B fuel (l + 1) dt (B.reset (l + 1) l s) else (s, none)

omit [IsStrictOrderedRing K] in
theorem nsc_parts (B : LevelSys K (GRun K I J C A)) (fuel l : Nat) (dt : K) (s : GRun K I J C A) :
    nscAdvanceLevel B (fuel + 1) l dt s = andThen (nscFiner B fuel l dt (B.pre l dt (0, 1) s)) (fun s => nscTail B l dt s) := rfl

omit [Field K] [LinearOrder K] [IsStrictOrderedRing K] in
theorem fillAt_only (o : GOps K I J C A) (s : GRun K I J C A) (l : Nat) : OnlyLevel l s (o.fillAt l s) :=
  ⟨rfl, fun k hk => by simp only [GOps.fillAt, hk, if_false], by simp only [GOps.fillAt, if_true]⟩

omit [IsStrictOrderedRing K] in
theorem nscTail_spec (o : GOps K I J C A) (l : Nat) (dt : K) (s : GRun K I J C A) :
    (nscTail (ghostSys o) l dt s).1.n = s.n ∧
    (∀ k, k ≠ l → (nscTail (ghostSys o) l dt s).1.lev k = s.lev k) ∧
    ((nscTail (ghostSys o) l dt s).2 = none → ((nscTail (ghostSys o) l dt s).1.lev l).time = (s.lev l).time + dt) ∧
    ((nscTail (ghostSys o) l dt s).2 = none → o.Current (nscTail (ghostSys o) l dt s).1 l) := by
  have h1 := adv_only o s l dt
  have hE : nscTail (ghostSys o) l dt s = andThen (o.adv l dt s) (fun t =>
      ((o.fillAt l (if (ghostSys o).levelExists t (l + 1) then
        o.completeAt l ((ghostSys o).coarsen (l + 1) l ((ghostSys o).corr (l + 1) l dt t)) else t)).post l dt, none)) := by
    unfold nscTail
    congr 1
    funext t
    by_cases c : l = 0
    · subst c
      rfl
    · simp only [c, if_false]
      rfl
  rw [hE]
  simp only [andThen]
  cases h : (o.adv l dt s).2 with
  | some e => exact ⟨h1.1, h1.2.1, fun h => by simp at h, fun h => by simp at h⟩
  | none =>
    simp only
    generalize (o.adv l dt s).1 = t at h1
    have h2 : OnlyLevel l s (if (ghostSys o).levelExists t (l + 1) then
        o.completeAt l ((ghostSys o).coarsen (l + 1) l ((ghostSys o).corr (l + 1) l dt t)) else t) := by
      split
      · exact ((h1.trans (setData_only _ _ _)).trans (setData_only _ _ _)).trans (completeAt_only _ _ _)
      · exact h1
    generalize (if (ghostSys o).levelExists t (l + 1) then
        o.completeAt l ((ghostSys o).coarsen (l + 1) l ((ghostSys o).corr (l + 1) l dt t)) else t) = v at h2
    have h3 := h2.trans (fillAt_only o v l)
    refine ⟨h3.1, fun k hk => ?_, fun _ => ?_, fun _ => ?_⟩
    · simp only [GRun.post, hk, if_false]
      exact h3.2.1 k hk
    · simp only [GRun.post, if_true, h3.2.2]
    · simp only [GOps.Current]
      have : o.fillValue ((o.fillAt l v).post l dt) l = o.fillValue v l := by
        refine fillValue_congr o _ _ l (fun k _ _ => ?_)
        by_cases c : k = l
        · subst c
          simp only [GRun.post, if_true]
          exact fillAt_data o k k v
        · simp only [GRun.post, c, if_false]
          exact fillAt_data o l k v
      rw [this]
      simp only [GRun.post, if_true]
      simp only [GOps.fillAt, if_true]

theorem nsc_call (o : GOps K I J C A) (fix : Nat → GRun K I J C A → GRun K I J C A)
    (hfix : ∀ l s, o.NscGood s l → fix l s = s) :
    ∀ (fuel l : Nat) (dt : K) (s : GRun K I J C A), o.NscOk s l → o.maxLevels ≤ l + fuel →
      nscAdvanceLevel (fixSys o fix) fuel l dt s = nscAdvanceLevel (ghostSys o) fuel l dt s ∧
      o.NscRes s l dt (nscAdvanceLevel (ghostSys o) fuel l dt s)
  | 0, l, dt, s, hs, hm => by
    have := hs.pos
    have := hs.max
    omega
  | fuel + 1, l, dt, s, hs, hm => by
    obtain ⟨p1, p2, p3, p4, p5, p6, p7, p8, p9, p10⟩ := ghost_pre_spec o l (0, 1) s hs.pos hs.max
    have hl0 := hs.time l le_rfl hs.pos
    have hT := p9 (fun k h1 h2 => (hs.time k h1 h2).trans hl0.symm)
    obtain ⟨g1, g2⟩ := p7 hl0
    have hp0 : ((o.pre l (0, 1) s).lev 0).time = (s.lev 0).time := by
      rcases Nat.eq_zero_or_pos l with h | h
      · subst h
        exact p5
      · rw [p3 0 h]
        rfl
    have hcur : l = 0 → o.Current (o.pre l (0, 1) s) 0 := by
      intro c
      subst c
      have := hs.cur rfl
      simp only [GOps.Current] at this ⊢
      rw [g1, this]
      refine fillValue_congr o _ _ 0 (fun k hk _ => ?_)
      have : k = 0 := by omega
      subst this
      exact p4.symm
    have hrf : o.refreshLevel l ((o.pre l (0, 1) s).lev l) = (o.pre l (0, 1) s).lev l := by
      simp only [GOps.refreshLevel] at p6 g2
      have a : refreshRefs (o.cut l) o.gas (o.wall l) ((o.pre l (0, 1) s).lev l).data ((o.pre l (0, 1) s).lev l).ref =
          ((o.pre l (0, 1) s).lev l).ref := by rw [p4, p6, refreshRefs_idem]
      have b : refreshRefs (o.gcut l) o.gas (o.gwall l) ((o.pre l (0, 1) s).lev l).ghost ((o.pre l (0, 1) s).lev l).gref =
          ((o.pre l (0, 1) s).lev l).gref := by rw [g1, g2, refreshRefs_idem]
      simp only [GOps.refreshLevel, a, b]
    rw [nsc_parts, nsc_parts]
    change andThen (nscFiner (fixSys o fix) fuel l dt (o.pre l (0, 1) s)) _ = andThen (nscFiner (ghostSys o) fuel l dt (o.pre l (0, 1) s)) _ ∧
      o.NscRes s l dt (andThen (nscFiner (ghostSys o) fuel l dt (o.pre l (0, 1) s)) _)
    clear p4 p6 p7 p8 p9 p10 g1 g2
    generalize o.pre l (0, 1) s = u at *
    have hfin : nscFiner (fixSys o fix) fuel l dt u = nscFiner (ghostSys o) fuel l dt u ∧
        (nscFiner (ghostSys o) fuel l dt u).1.n ≤ o.maxLevels ∧ l < (nscFiner (ghostSys o) fuel l dt u).1.n ∧
        (∀ k, k ≤ l → (nscFiner (ghostSys o) fuel l dt u).1.lev k = u.lev k ∨
          (nscFiner (ghostSys o) fuel l dt u).1.lev k = o.refreshLevel k (u.lev k)) ∧
        ((nscFiner (ghostSys o) fuel l dt u).2 = none → ∀ k, l < k → k < (nscFiner (ghostSys o) fuel l dt u).1.n →
          ((nscFiner (ghostSys o) fuel l dt u).1.lev k).time = (s.lev 0).time + dt) := by
      by_cases c : l + 1 < u.n
      · have hok : o.NscOk ({ u with aux := o.clear (l + 1) u.aux } : GRun K I J C A) (l + 1) :=
          ⟨c, p2, fun k h1 h2 => (hT k (by omega) h2).trans (hl0.trans hp0.symm), fun h => by omega⟩
        obtain ⟨e1, e2⟩ := nsc_call o fix hfix fuel (l + 1) dt _ hok (by omega)
        have ec : decide (l + 1 < u.n) = true := by simp only [c, decide_true]
        have hL : nscFiner (ghostSys o) fuel l dt u = nscAdvanceLevel (ghostSys o) fuel (l + 1) dt { u with aux := o.clear (l + 1) u.aux } := by
          simp only [nscFiner]
          exact if_pos ec
        have hL' : nscFiner (fixSys o fix) fuel l dt u = nscAdvanceLevel (fixSys o fix) fuel (l + 1) dt { u with aux := o.clear (l + 1) u.aux } := by
          simp only [nscFiner]
          exact if_pos ec
        rw [hL, hL', e1]
        refine ⟨rfl, e2.max, by have := e2.pos; omega, fun k hk => Or.inr (e2.below k (by omega)), fun he k h1 h2 => ?_⟩
        rw [e2.time he k (by omega) h2]
        show (u.lev 0).time + dt = _
        rw [hp0]
      · have ec : ¬ decide (l + 1 < u.n) = true := by simp only [c, decide_false]; decide
        have hL : nscFiner (ghostSys o) fuel l dt u = (u, none) := by
          simp only [nscFiner]
          exact if_neg ec
        have hL' : nscFiner (fixSys o fix) fuel l dt u = (u, none) := by
          simp only [nscFiner]
          exact if_neg ec
        rw [hL, hL']
        exact ⟨rfl, p2, p1, fun k hk => Or.inl rfl, fun _ k h1 h2 => by simp only at h2; omega⟩
    obtain ⟨f1, f2, f3, f4, f6⟩ := hfin
    rw [f1]
    generalize nscFiner (ghostSys o) fuel l dt u = q at f2 f3 f4 f6
    obtain ⟨t, e⟩ := q
    simp only at f2 f3 f4 f6
    have hbelow : ∀ k, k < l → t.lev k = o.refreshLevel k (s.lev k) := by
      intro k hk
      rcases f4 k (by omega) with h | h <;> rw [h, p3 k hk]
      exact refreshLevel_idem o k _
    have hlev : t.lev l = u.lev l := by
      rcases f4 l le_rfl with h | h
      · exact h
      · rw [h, hrf]
    cases e with
    | some e =>
      exact ⟨rfl, f3, f2, hbelow, fun h => by simp [andThen] at h, fun h => by simp [andThen] at h⟩
    | none =>
      have hgood : o.NscGood t l := by
        refine ⟨fun c => ?_, by rw [hlev]; exact hrf⟩
        subst c
        have := hcur rfl
        simp only [GOps.Current] at this ⊢
        rw [hlev, this]
        refine fillValue_congr o _ _ 0 (fun k hk _ => ?_)
        have : k = 0 := by omega
        subst this
        rw [hlev]
      have htail : nscTail (fixSys o fix) l dt t = nscTail (ghostSys o) l dt t := by
        have : (fixSys o fix).adv l dt (0, 1) t = (ghostSys o).adv l dt (0, 1) t := by
          simp only [fixSys, hfix l t hgood]
          rfl
        simp only [nscTail, this]
        rfl
      obtain ⟨t1, t2, t3, t4⟩ := nscTail_spec o l dt t
      simp only [andThen]
      refine ⟨htail, by omega, by omega, fun k hk => ?_, fun hn k h1 h2 => ?_, fun hn c => ?_⟩
      · rw [t2 k (by omega)]
        exact hbelow k hk
      · rw [t1] at h2
        by_cases c : k = l
        · subst c
          rw [t3 hn, hlev, p5, hl0]
        · rw [t2 k c, f6 rfl k (by omega) h2]
      · have := t4 hn
        subst c
        exact this

theorem nsc_run (o : GOps K I J C A) (fix : Nat → GRun K I J C A → GRun K I J C A)
    (hfix : ∀ l s, o.NscGood s l → fix l s = s) : ∀ (dts : List K) (s : GRun K I J C A), o.NscOk s 0 →
    nscSteps (fixSys o fix) o.maxLevels dts s = nscSteps (ghostSys o) o.maxLevels dts s
  | [], s, hs => rfl
  | dt :: dts, s, hs => by
    obtain ⟨h1, h2⟩ := nsc_call o fix hfix o.maxLevels 0 dt s hs (by omega)
    simp only [nscSteps, h1]
    generalize nscAdvanceLevel (ghostSys o) o.maxLevels 0 dt s = q at h2
    obtain ⟨u, e⟩ := q
    cases e with
    | some e => rfl
    | none =>
      have ht := h2.time rfl
      have hp := h2.pos
      simp only [andThen]
      exact nsc_run o fix hfix dts u ⟨hp, h2.max, fun k h1 h2 => by rw [ht k h1 h2, ht 0 le_rfl hp], fun _ => h2.cur rfl rfl⟩

/-- **C186 (no subcycling).** Whenever level 0 is advanced its ghost cells are current: filling them immediately before computes exactly the same. (For the finer levels this is
false, `no_subcycling_stale_ghosts`.) -/
theorem no_subcycling_ghosts_partial (o : GOps K I J C A) (dts : List K) (s : GRun K I J C A) (hs : o.Synced s) :
    nscSteps (fixSys o (fun l s => if l = 0 then o.fillAt 0 s else s)) o.maxLevels dts s = nscSteps (ghostSys o) o.maxLevels dts s := by
  refine nsc_run o _ (fun l s h => ?_) dts s ⟨hs.pos, hs.max, fun k _ hk => hs.time k hk, fun _ => hs.current 0 hs.pos⟩
  split
  · next c =>
    simp only [GOps.fillAt]
    rw [← h.cur c]
    have : (fun k => if k = 0 then ({ s.lev 0 with ghost := (s.lev 0).ghost } : GLevel K I J C) else s.lev k) = s.lev := by
      funext k
      split
      · next e => rw [e]
      · rfl
    rw [this]
  · rfl

/-- **C186 (no subcycling, wall reference states).** Whenever a level is advanced, the reference states at the walls in all its cells and ghost cells are those of its present states. -/
theorem no_subcycling_refs (o : GOps K I J C A) (dts : List K) (s : GRun K I J C A) (hs : o.Synced s) :
    nscSteps (withFreshRefs o (fun _ _ => true) (ghostSys o)) o.maxLevels dts s = nscSteps (ghostSys o) o.maxLevels dts s := by
  refine nsc_run o (fun l s => freshRefsAt o (fun _ _ => true) l s) (fun l s h => ?_) dts s
    ⟨hs.pos, hs.max, fun k _ hk => hs.time k hk, fun _ => hs.current 0 hs.pos⟩
  simp only [freshRefsAt, if_true]
  have : (fun k => if k = l then o.refreshLevel l (s.lev l) else s.lev k) = s.lev := by
    funext k
    split
    · next e =>
      subst e
      exact h.ref
    · rfl
  rw [this]

/-! ### Concrete cases -/

/-- Two levels of one cell and one ghost cell each. Ghost cells of level 0 are periodic, those of level 1 copy the coarse cell. A step adds the ghost
value, the reference state and the reference state in the ghost cell; the reference state at a wall is the state itself. -/
def demoGhost : GOps ℚ Unit Unit ℚ Unit where
  maxLevels := 2
  ratio := fun _ => 2
  fill0 := fun d => d
  fill := fun _ c _ => c
  cut := fun _ _ => true
  gcut := fun _ _ => true
  gas := fun q => decide (0 < q)
  wall := fun _ _ q => q
  gwall := fun _ _ q => q
  step := fun _ dt d g r q _ => (fun _ => d () + dt * (g () + r () + 100 * q ()), fun _ => 7, (), none)
  clear := fun _ a => a
  corr := fun _ _ _ d => d
  coarsen := fun _ f _ => f
  complete := fun _ d g => (d, g)

/-- A beginning for `n` levels. -/
def demoRun (n : Nat) (script : List (Option (GRegrid Unit Unit ℚ))) : GRun ℚ Unit Unit ℚ Unit where
  lev := fun _ => ⟨fun _ => 1, fun _ => 1, fun _ => 0, fun _ => 0, 0, 0⟩
  n := n
  cycles := 0
  aux := ()
  script := script

example : demoGhost.Synced (demoRun 1 []) := ⟨by decide, by decide, fun _ _ => rfl, fun k hk => by
  have : k = 0 := by simp only [demoRun] at hk; omega
  subst this
  rfl⟩

example : demoGhost.Synced (demoRun 2 [none, none]) := ⟨by decide, by decide, fun _ _ => rfl, fun k hk => by
  have : k = 0 ∨ k = 1 := by simp only [demoRun] at hk; omega
  rcases this with rfl | rfl <;> rfl⟩

/-- The value in the cell of a level after the steps. -/
def finalCell (l : Nat) (r : Option (GRun ℚ Unit Unit ℚ Unit × Option (StepErr ℚ))) : Option ℚ := r.map (fun r => (r.1.lev l).data ())

/-- **C186 is false for `regrid_frequency ≠ 1`.** The option decides how often ghost cells are filled: with `regrid_frequency = 2` the second step reads the ghost cells
that the first step left behind. (Regridding does not depend on the option.) -/
theorem regrid_frequency_stale_ghosts :
    finalCell 0 (runSteps (ghostSys demoGhost) 2 2 [1, 1] (demoRun 1 [])) ≠
    finalCell 0 (runSteps (withFreshGhosts demoGhost (ghostSys demoGhost)) 2 2 [1, 1] (demoRun 1 [])) := by
  decide +kernel

/-- **C186 is false for the reference states in ghost cells of the finest level.** In the second subcycle they are computed before the ghost cells are filled. -/
theorem ghost_refs_stale :
    finalCell 1 (runSteps (ghostSys demoGhost) 2 1 [1] (demoRun 2 [])) ≠
    finalCell 1 (runSteps (withFreshRefs demoGhost (fun _ _ => true) (ghostSys demoGhost)) 2 1 [1] (demoRun 2 [])) := by
  decide +kernel

/-- **C186 is false without subcycling.** The ghost cells of a refined level are filled at the end of its own step, before the coarser level is advanced: in the next step the refined
level reads coarse data that are one step old. -/
theorem no_subcycling_stale_ghosts :
    finalCell 1 (some (nscSteps (ghostSys demoGhost) 2 [1, 1] (demoRun 2 [none]))) ≠
    finalCell 1 (some (nscSteps (withFreshGhosts demoGhost (ghostSys demoGhost)) 2 [1, 1] (demoRun 2 [none]))) := by
  decide +kernel

end

end Fub
