import Verif.Spec.MultiBlockRun
import Verif.Props.Context
import Mathlib.Tactic.Linarith
import Mathlib.Data.Fintype.Prod
import Mathlib.Order.Lattice

/-!
C148 (every block of a multi-block run is advanced like in a run of its own), C149 (blocks with different levels).
-/

namespace Fub

section
variable {K C : Type} [Field K] [LinearOrder K]

theorem forSub_inv {S E : Type} (P : S → Prop) (f : ℕ → S → S × Option E) (h : ∀ r s, P s → P (f r s).1) (n r : ℕ) (s : S) (hs : P s) : P (forSub f n r s).1 := by
  induction n generalizing r s with
  | zero => exact hs
  | succ n ih =>
    rw [forSub]
    have := h r s hs
    generalize f r s = x at this ⊢
    obtain ⟨x1, x2⟩ := x
    cases x2 with
    | none => exact ih _ _ this
    | some e => exact this

/-- The sub-steps of the finer level in `AdvanceLevel`. -/
def subPart (V : LevelSys K C) (fuel l : ℕ) (dt : K) (c : C) : C × Option (StepErr K) :=
  if V.levelExists c (l + 1) then
    scaleRes V.ratio (forSub (fun r s => advanceLevel V fuel (l + 1) (dt / (V.ratio (l + 1) : K)) (r, V.ratio (l + 1)) s) (V.ratio (l + 1)) 0 (V.reset (l + 1) l c))
  else (c, none)

/-- The part of `AdvanceLevel` after the step of the level: correction, averaging, publishing. -/
def midPart (V : LevelSys K C) (l : ℕ) (dt : K) (c : C) : C :=
  let c1 := if V.levelExists c (l + 1) then V.corr (l + 1) l dt c else c
  V.copyBack l (if V.levelExists c1 (l + 1) then V.complete l dt (V.coarsen (l + 1) l c1) else c1)

theorem advanceLevel_succ (V : LevelSys K C) (fuel l : ℕ) (dt : K) (sub : ℕ × ℕ) (c : C) :
    advanceLevel V (fuel + 1) l dt sub c = andThen (subPart V fuel l dt (V.pre l dt sub c)) fun c => andThen (scaleRes V.ratio (V.adv l dt sub c)) fun c => scaleRes V.ratio (V.post l dt sub (midPart V l dt c)) := rfl

theorem midPart_exists {V : LevelSys K C} (hV : V.KeepsLevels) (l : ℕ) (dt : K) (c : C) (k : ℕ) : V.levelExists (midPart V l dt c) k = V.levelExists c k := by
  unfold midPart
  dsimp only
  rw [hV.copyBack]
  have h1 : V.levelExists (if V.levelExists c (l + 1) = true then V.corr (l + 1) l dt c else c) k = V.levelExists c k := by
    by_cases h : V.levelExists c (l + 1) = true
    · rw [if_pos h, hV.corr]
    · rw [if_neg h]
  generalize (if V.levelExists c (l + 1) = true then V.corr (l + 1) l dt c else c) = d at h1
  by_cases h : V.levelExists d (l + 1) = true
  · rw [if_pos h, hV.complete, hV.coarsen, h1]
  · rw [if_neg h, h1]

theorem scaleRes_ok {r : C × Option (StepErr K)} {ratio : ℕ → ℕ} : (scaleRes ratio r).2 = none ↔ r.2 = none := by
  unfold scaleRes; simp

/-- A step of level `l` does not change which levels up to `l` exist. -/
theorem advanceLevel_exists {V : LevelSys K C} (hV : V.KeepsLevels) (fuel l : ℕ) (dt : K) (sub : ℕ × ℕ) (c : C) (k : ℕ) (hk : k ≤ l) :
    V.levelExists (advanceLevel V fuel l dt sub c).1 k = V.levelExists c k := by
  induction fuel generalizing l dt sub c with
  | zero => rfl
  | succ fuel ih =>
    rw [advanceLevel_succ]
    have h1 := hV.pre l dt sub c k hk
    generalize V.pre l dt sub c = c1 at h1 ⊢
    have h2 : V.levelExists (subPart V fuel l dt c1).1 k = V.levelExists c k := by
      unfold subPart
      by_cases h : V.levelExists c1 (l + 1) = true
      · rw [if_pos h]
        refine forSub_inv (fun s => V.levelExists s k = V.levelExists c k) _ (fun r s hs => ?_) _ _ _ ?_
        · rw [ih (l + 1) _ _ s (by omega), hs]
        · rw [hV.reset, h1]
      · rw [if_neg h]; exact h1
    generalize subPart V fuel l dt c1 = x at h2 ⊢
    obtain ⟨x1, x2⟩ := x
    cases x2 with
    | some e => exact h2
    | none =>
      simp only [andThen]
      have h3 := hV.adv l dt sub x1 k
      generalize V.adv l dt sub x1 = y at h3 ⊢
      obtain ⟨y1, y2⟩ := y
      cases y2 with
      | some e => exact h3.trans h2
      | none =>
        simp only [scaleRes, Option.map_none]
        rw [hV.post, midPart_exists hV]
        exact h3.trans h2

variable {S : Type}

/-- The relation between a level integrator of all blocks and the view of one block: operations act on the block exactly if it has the level. -/
structure BlockView (M : LevelSys K S) (V : LevelSys K C) (p : S → C) : Prop where
  ex : ∀ s l, V.levelExists (p s) l = true → M.levelExists s l = true
  gaps : V.NoGaps
  redundant : ∀ l dt sub c c', V.adv l dt sub c = (c', none) → V.complete l dt c' = c'
  ratio : M.ratio = V.ratio
  pre : ∀ l dt sub s, p (M.pre l dt sub s) = if V.levelExists (p s) l then V.pre l dt sub (p s) else p s
  reset : ∀ f c s, p (M.reset f c s) = if V.levelExists (p s) f then V.reset f c (p s) else p s
  adv : ∀ l dt sub s, (M.adv l dt sub s).2 = none → if V.levelExists (p s) l then V.adv l dt sub (p s) = (p (M.adv l dt sub s).1, none) else p (M.adv l dt sub s).1 = p s
  corr : ∀ f c dt s, p (M.corr f c dt s) = if V.levelExists (p s) f then V.corr f c dt (p s) else p s
  coarsen : ∀ f c s, p (M.coarsen f c s) = if V.levelExists (p s) f then V.coarsen f c (p s) else p s
  complete : ∀ l dt s, p (M.complete l dt s) = if V.levelExists (p s) l then V.complete l dt (p s) else p s
  copyBack : ∀ l s, p (M.copyBack l s) = if V.levelExists (p s) l then V.copyBack l (p s) else p s
  post : ∀ l dt sub s, (M.post l dt sub s).2 = none → if V.levelExists (p s) l then V.post l dt sub (p s) = (p (M.post l dt sub s).1, none) else p (M.post l dt sub s).1 = p s

theorem forSub_view {V : LevelSys K C} {M : LevelSys K S} {p : S → C} {fM : ℕ → S → S × Option (StepErr K)} {fV : ℕ → C → C × Option (StepErr K)} (P : C → Prop)
    (h : ∀ r s, P (p s) → (fM r s).2 = none → fV r (p s) = (p (fM r s).1, none) ∧ P (p (fM r s).1)) (n r : ℕ) (s : S) (hs : P (p s)) (hok : (forSub fM n r s).2 = none) :
    forSub fV n r (p s) = (p (forSub fM n r s).1, none) := by
  induction n generalizing r s with
  | zero => rfl
  | succ n ih =>
    rw [forSub] at hok ⊢
    rw [forSub]
    have := h r s hs
    generalize fM r s = x at this hok ⊢
    obtain ⟨x1, x2⟩ := x
    cases x2 with
    | some e => simp [andThen] at hok
    | none =>
      obtain ⟨h1, h2⟩ := this rfl
      rw [h1]
      exact ih (r + 1) x1 h2 hok

theorem forSub_same {p : S → C} {fM : ℕ → S → S × Option (StepErr K)} (P : C → Prop) (h : ∀ r s, P (p s) → (fM r s).2 = none → p (fM r s).1 = p s) (n r : ℕ) (s : S) (hs : P (p s)) (hok : (forSub fM n r s).2 = none) :
    p (forSub fM n r s).1 = p s := by
  induction n generalizing r s with
  | zero => rfl
  | succ n ih =>
    rw [forSub] at hok ⊢
    have := h r s hs
    generalize fM r s = x at this hok ⊢
    obtain ⟨x1, x2⟩ := x
    cases x2 with
    | some e => simp [andThen] at hok
    | none =>
      have h1 := this rfl
      simp only at h1
      rw [← h1]
      exact ih (r + 1) x1 (by rw [h1]; exact hs) hok

/-- A successful step of all blocks is, for each block that has the level, a step of this block alone, and does nothing to the others. -/
theorem view_advance {V : LevelSys K C} {M : LevelSys K S} {p : S → C} (hv : BlockView M V p) (hV : V.KeepsLevels) (fuel l : ℕ) (dt : K) (sub : ℕ × ℕ) (s : S)
    (hok : (advanceLevel M fuel l dt sub s).2 = none) :
    if V.levelExists (p s) l then advanceLevel V fuel l dt sub (p s) = (p (advanceLevel M fuel l dt sub s).1, none) else p (advanceLevel M fuel l dt sub s).1 = p s := by
  induction fuel generalizing l dt sub s with
  | zero => simp [advanceLevel]
  | succ fuel ih =>
    rw [advanceLevel_succ] at hok ⊢
    rw [advanceLevel_succ]
    have hpre := hv.pre l dt sub s
    have hex1 : V.levelExists (p (M.pre l dt sub s)) l = V.levelExists (p s) l := by
      rw [hpre]; split
      · exact hV.pre l dt sub _ l le_rfl
      · rfl
    generalize M.pre l dt sub s = s1 at hpre hex1 hok ⊢
    -- the sub-steps
    have hsub : (subPart M fuel l dt s1).2 = none → subPart V fuel l dt (p s1) = (p (subPart M fuel l dt s1).1, none)
        ∧ V.levelExists (p (subPart M fuel l dt s1).1) l = V.levelExists (p s1) l ∧ (V.levelExists (p s1) (l + 1) = false → p (subPart M fuel l dt s1).1 = p s1) := by
      intro hX
      unfold subPart at hX ⊢
      by_cases hM : M.levelExists s1 (l + 1) = true
      · rw [if_pos hM] at hX ⊢
        have hr := hv.reset (l + 1) l s1
        have hX3 := scaleRes_ok.1 hX
        simp only [scaleRes]
        by_cases hVe : V.levelExists (p s1) (l + 1) = true
        · rw [if_pos hVe] at hr
          have hVr : V.levelExists (V.reset (l + 1) l (p s1)) (l + 1) = true := by rw [hV.reset]; exact hVe
          have key := forSub_view (V := V) (M := M) (p := p) (fM := fun r s => advanceLevel M fuel (l + 1) (dt / (M.ratio (l + 1) : K)) (r, M.ratio (l + 1)) s)
            (fV := fun r s => advanceLevel V fuel (l + 1) (dt / (M.ratio (l + 1) : K)) (r, M.ratio (l + 1)) s) (fun c => V.levelExists c (l + 1) = true)
            (fun r t ht hok' => by
              have h := ih (l + 1) _ _ t hok'
              rw [if_pos ht] at h
              refine ⟨h, ?_⟩
              have := advanceLevel_exists hV fuel (l + 1) (dt / (M.ratio (l + 1) : K)) (r, M.ratio (l + 1)) (p t) (l + 1) le_rfl
              rw [h] at this
              exact this.trans ht) (M.ratio (l + 1)) 0 (M.reset (l + 1) l s1) (by rw [hr]; exact hVr) hX3
          generalize (forSub (fun r s => advanceLevel M fuel (l + 1) (dt / (M.ratio (l + 1) : K)) (r, M.ratio (l + 1)) s) (M.ratio (l + 1)) 0 (M.reset (l + 1) l s1)) = X at key
          rw [hr, hv.ratio] at key
          rw [if_pos hVe, key]
          refine ⟨rfl, ?_, fun h => absurd hVe (by rw [h]; simp)⟩
          have e1 : V.levelExists (p X.1) l = V.levelExists (V.reset (l + 1) l (p s1)) l := by
            have := forSub_inv (fun c => V.levelExists c l = V.levelExists (V.reset (l + 1) l (p s1)) l)
              (fun r s => advanceLevel V fuel (l + 1) (dt / (V.ratio (l + 1) : K)) (r, V.ratio (l + 1)) s)
              (fun r c hc => by rw [advanceLevel_exists hV fuel (l + 1) _ _ c l (by omega), hc]) (V.ratio (l + 1)) 0 (V.reset (l + 1) l (p s1)) rfl
            rw [key] at this
            exact this
          rw [e1, hV.reset]
        · rw [if_neg hVe] at hr ⊢
          have key := forSub_same (p := p) (fM := fun r s => advanceLevel M fuel (l + 1) (dt / (M.ratio (l + 1) : K)) (r, M.ratio (l + 1)) s) (fun c => ¬ V.levelExists c (l + 1) = true)
            (fun r t ht hok' => by
              have h := ih (l + 1) _ _ t hok'
              rw [if_neg ht] at h
              exact h) (M.ratio (l + 1)) 0 (M.reset (l + 1) l s1) (by rw [hr]; exact hVe) hX3
          rw [hr] at key
          rw [key]
          exact ⟨rfl, rfl, fun _ => rfl⟩
      · have hVe : ¬ V.levelExists (p s1) (l + 1) = true := fun h => hM (hv.ex _ _ h)
        rw [if_neg hM, if_neg hVe]
        exact ⟨rfl, rfl, fun _ => rfl⟩
    generalize subPart M fuel l dt s1 = X at hsub hok ⊢
    obtain ⟨x1, x2⟩ := X
    cases x2 with
    | some e => simp [andThen] at hok
    | none =>
    obtain ⟨hs1, hs2, hs3⟩ := hsub rfl
    simp only [andThen] at hok ⊢
    -- the step of this level
    have hadv := hv.adv l dt sub x1
    generalize M.adv l dt sub x1 = y at hadv hok ⊢
    obtain ⟨y1, y2⟩ := y
    cases y2 with
    | some e => simp [scaleRes] at hok
    | none =>
    have hadv := hadv rfl
    have e0 : (scaleRes M.ratio (y1, (none : Option (StepErr K)))) = (y1, none) := rfl
    rw [e0] at hok ⊢
    dsimp only at hok hadv ⊢
    have hpost := hv.post l dt sub (midPart M l dt y1) (scaleRes_ok.1 hok)
    have hp1 : (scaleRes M.ratio (M.post l dt sub (midPart M l dt y1))).1 = (M.post l dt sub (midPart M l dt y1)).1 := rfl
    rw [hp1]
    have hMV : ∀ t, M.levelExists t (l + 1) = false → V.levelExists (p t) (l + 1) = false := fun t h => by
      cases h' : V.levelExists (p t) (l + 1) with
      | false => rfl
      | true => rw [hv.ex _ _ h'] at h; cases h
    -- the view of the part between
    have hcorr : p (if M.levelExists y1 (l + 1) = true then M.corr (l + 1) l dt y1 else y1) = if V.levelExists (p y1) (l + 1) = true then V.corr (l + 1) l dt (p y1) else p y1 := by
      by_cases h : M.levelExists y1 (l + 1) = true
      · rw [if_pos h, hv.corr]
      · rw [if_neg h, if_neg (by rw [hMV _ (by simpa using h)]; simp)]
    have hez : ∀ k, V.levelExists (if V.levelExists (p y1) (l + 1) = true then V.corr (l + 1) l dt (p y1) else p y1) k = V.levelExists (p y1) k := by
      intro k
      by_cases h : V.levelExists (p y1) (l + 1) = true
      · rw [if_pos h, hV.corr]
      · rw [if_neg h]
    by_cases hl : V.levelExists (p s) l = true
    · rw [if_pos hl] at hpre ⊢
      rw [if_pos (by rw [hs2, hex1]; exact hl)] at hadv
      rw [← hpre, hs1]
      dsimp only
      rw [hadv]
      have e1 : (scaleRes V.ratio (p y1, (none : Option (StepErr K)))) = (p y1, none) := rfl
      rw [e1]
      dsimp only
      have hel : V.levelExists (p y1) l = true := by
        have := hV.adv l dt sub (p x1) l
        rw [hadv] at this
        rw [this, hs2, hex1]; exact hl
      have hmid : p (midPart M l dt y1) = midPart V l dt (p y1) := by
        unfold midPart
        dsimp only
        generalize hz : (if M.levelExists y1 (l + 1) = true then M.corr (l + 1) l dt y1 else y1) = z at hcorr ⊢
        rw [← hcorr] at hez ⊢
        rw [hv.copyBack]
        by_cases hMz : M.levelExists z (l + 1) = true
        · rw [if_pos hMz, hv.complete, hv.coarsen]
          by_cases hVz : V.levelExists (p z) (l + 1) = true
          · have : V.levelExists (p z) l = true := by rw [hez]; exact hel
            rw [if_pos hVz, hV.coarsen, if_pos this, if_pos hVz, hV.complete, hV.coarsen, if_pos this]
          · have hz' : p z = p y1 := by
              rw [hez] at hVz
              rw [hcorr, if_neg hVz]
            rw [if_neg hVz, if_neg hVz, hz', if_pos hel, hv.redundant l dt sub _ _ hadv, if_pos hel]
        · have hVz := hMV z (by simpa using hMz)
          rw [if_neg hMz, if_pos (by rw [hez]; exact hel), if_neg (by rw [hVz]; simp)]
      rw [if_pos (by rw [hmid, midPart_exists hV]; exact hel)] at hpost
      rw [← hmid, hpost]
      rfl
    · rw [if_neg hl] at hpre ⊢
      have hl1 : V.levelExists (p s1) (l + 1) = false := by
        cases h : V.levelExists (p s1) (l + 1) with
        | false => rfl
        | true => rw [hpre] at h; exact absurd (hv.gaps _ _ h) hl
      have hx := hs3 hl1
      rw [if_neg (by rw [hs2, hex1]; exact hl), hx, hpre] at hadv
      have hn : V.levelExists (p y1) (l + 1) = false := by rw [hadv, ← hpre]; exact hl1
      have hmid : p (midPart M l dt y1) = p y1 := by
        unfold midPart
        dsimp only
        generalize hz : (if M.levelExists y1 (l + 1) = true then M.corr (l + 1) l dt y1 else y1) = z at hcorr ⊢
        rw [hn] at hcorr
        simp only [Bool.false_eq_true, if_false] at hcorr
        have hzl : ¬ V.levelExists (p z) l = true := by rw [hcorr, hadv]; exact hl
        have hzn : ¬ V.levelExists (p z) (l + 1) = true := by rw [hcorr, hn]; simp
        rw [hv.copyBack]
        by_cases hMz : M.levelExists z (l + 1) = true
        · rw [if_pos hMz, hv.complete, hv.coarsen, if_neg hzn, if_neg hzl, if_neg hzl, hcorr]
        · rw [if_neg hMz, if_neg hzl, hcorr]
      rw [if_neg (by rw [hmid, hadv]; exact hl), hmid, hadv] at hpost
      exact hpost

end

section
variable {ι K S C : Type} [Fintype ι] [DecidableEq ι] [Field K] [LinearOrder K]

omit [Fintype ι] [Field K] [LinearOrder K] in
theorem mbPost_spec (B : ι → LevelSys K S) (l : ℕ) (dt : K) (sub : ℕ × ℕ) (order : List ι) (hn : order.Nodup) (b : ι → S) (hok : (mbPost B l dt sub order b).2 = none) (i : ι) :
    (i ∉ order → (mbPost B l dt sub order b).1 i = b i) ∧
    (i ∈ order → if (B i).levelExists (b i) l then (B i).post l dt sub (b i) = ((mbPost B l dt sub order b).1 i, none) else (mbPost B l dt sub order b).1 i = b i) := by
  induction order generalizing b with
  | nil => exact ⟨fun _ => rfl, fun h => absurd h (by simp)⟩
  | cons j js ih =>
    obtain ⟨hj, hjs⟩ := List.nodup_cons.1 hn
    rw [mbPost] at hok ⊢
    by_cases he : (B j).levelExists (b j) l = true
    · rw [if_pos he] at hok ⊢
      cases hp : (B j).post l dt sub (b j) with
      | mk s' e =>
        rw [hp] at hok
        cases e with
        | some e => simp at hok
        | none =>
          dsimp only at hok ⊢
          obtain ⟨h1, h2⟩ := ih hjs (Function.update b j s') hok
          by_cases hij : i = j
          · subst hij
            refine ⟨fun h => absurd List.mem_cons_self h, fun _ => ?_⟩
            rw [if_pos he, h1 hj, Function.update_self, hp]
          · rw [Function.update_of_ne hij] at h1 h2
            exact ⟨fun h => h1 (fun h' => h (List.mem_cons_of_mem _ h')), fun h => h2 ((List.mem_cons.1 h).resolve_left hij)⟩
    · rw [if_neg he] at hok ⊢
      obtain ⟨h1, h2⟩ := ih hjs b hok
      by_cases hij : i = j
      · subst hij
        refine ⟨fun h => absurd List.mem_cons_self h, fun _ => ?_⟩
        rw [if_neg he, h1 hj]
      · exact ⟨fun h => h1 (fun h' => h (List.mem_cons_of_mem _ h')), fun h => h2 ((List.mem_cons.1 h).resolve_left hij)⟩

/-- What one block sees of the joint step on a level: nothing if it does not have the level, its own step otherwise; and the exchange of ghost data is not part of what is shown. -/
structure JointOk (B : ι → LevelSys K S) (i : ι) (V : LevelSys K C) (o : S → C) (couple : ℕ → (ι → S) → ι → S)
    (adv : ℕ → K → ℕ × ℕ → (ι → S) → (ι → S) × Option (StepErr K)) : Prop where
  couple : ∀ l b, o (couple l b i) = o (b i)
  adv : ∀ l dt sub b, (adv l dt sub b).2 = none → if (B i).levelExists (b i) l then V.adv l dt sub (o (b i)) = (o ((adv l dt sub b).1 i), none) else o ((adv l dt sub b).1 i) = o (b i)

/-- The view with the refinement ratios of the first plenum. -/
def LevelSys.withRatio (V : LevelSys K C) (r : ℕ → ℕ) : LevelSys K C := { V with ratio := r }

omit [Field K] [LinearOrder K] in
theorem withRatio_finer {V : LevelSys K C} (hV : V.KeepsLevels) (r : ℕ → ℕ) : (V.withRatio r).KeepsLevels :=
  ⟨hV.pre, hV.reset, hV.adv, hV.corr, hV.coarsen, hV.complete, hV.copyBack, hV.post⟩

theorem forBlocks_view {B : ι → LevelSys K S} {i : ι} {V : LevelSys K C} {o : S → C} (hS : (B i).Shows V o) (l : ℕ) (op : LevelSys K S → S → S) (opV : C → C)
    (h : ∀ s, o (op (B i) s) = opV (o s)) (b : ι → S) : o (forBlocks B l op b i) = if V.levelExists (o (b i)) l then opV (o (b i)) else o (b i) := by
  unfold forBlocks
  rw [hS.levelExists]
  split
  · rw [h]
  · rfl

theorem multi_view {B : ι → LevelSys K S} {p0 : ι} {order : List ι} (hn : order.Nodup) {couple : ℕ → (ι → S) → ι → S}
    {adv : ℕ → K → ℕ × ℕ → (ι → S) → (ι → S) × Option (StepErr K)} {stable : (ι → S) → ℕ → K} {i : ι} (hi : i ∈ order) {V : LevelSys K C} {o : S → C}
    (hS : (B i).Shows V o) (hJ : JointOk B i V o couple adv) (hg : V.NoGaps) (hred : ∀ l dt sub c c', V.adv l dt sub c = (c', none) → V.complete l dt c' = c') :
    BlockView (multiSys B p0 order couple adv stable) (V.withRatio (B p0).ratio) (fun s => o (s.blocks i)) where
  ex := fun s l h => decide_eq_true ⟨i, by rw [← hS.levelExists]; exact h⟩
  gaps := hg
  redundant := hred
  ratio := rfl
  pre := fun l dt sub s => by
    show o (couple l _ i) = _
    rw [hJ.couple]
    exact forBlocks_view hS l (fun B => B.pre l dt sub) (V.pre l dt sub) (hS.pre l dt sub) s.blocks
  reset := fun f c s => forBlocks_view hS f (fun B => B.reset f c) (V.reset f c) (hS.reset f c) s.blocks
  adv := fun l dt sub s h => by
    have := hJ.adv l dt sub s.blocks h
    rw [← hS.levelExists] at this
    exact this
  corr := fun f c dt s => forBlocks_view hS f (fun B => B.corr f c dt) (V.corr f c dt) (hS.corr f c dt) s.blocks
  coarsen := fun f c s => forBlocks_view hS f (fun B => B.coarsen f c) (V.coarsen f c) (hS.coarsen f c) s.blocks
  complete := fun l dt s => forBlocks_view hS l (fun B => B.complete l dt) (V.complete l dt) (hS.complete l dt) s.blocks
  copyBack := fun l s => forBlocks_view hS l (fun B => B.copyBack l) (V.copyBack l) (hS.copyBack l) s.blocks
  post := fun l dt sub s h => by
    have := (mbPost_spec B l dt sub order hn s.blocks h i).2 hi
    have e : ∀ c, (V.withRatio (B p0).ratio).levelExists c l = V.levelExists c l := fun _ => rfl
    rw [e, hS.levelExists]
    by_cases hl : (B i).levelExists (s.blocks i) l = true
    · rw [if_pos hl] at this ⊢
      have hp := hS.post l dt sub (s.blocks i) (by rw [this])
      rw [this] at hp
      exact hp
    · rw [if_neg hl] at this ⊢
      exact congrArg o this

/-- **C148.** What a block shows after a successful time step of all blocks is exactly what it shows after a time step of this block alone with the same step size and the refinement ratios of the first plenum; a block without level `l` is not changed by a step of level `l`. Any number of blocks and levels, any regridding, any coupling of the other data. -/
theorem block_run {B : ι → LevelSys K S} {p0 : ι} {order : List ι} (hn : order.Nodup) {couple : ℕ → (ι → S) → ι → S}
    {adv : ℕ → K → ℕ × ℕ → (ι → S) → (ι → S) × Option (StepErr K)} {stable : (ι → S) → ℕ → K} {i : ι} (hi : i ∈ order) {V : LevelSys K C} {o : S → C}
    (hS : (B i).Shows V o) (hJ : JointOk B i V o couple adv) (hg : V.NoGaps) (hred : ∀ l dt sub c c', V.adv l dt sub c = (c', none) → V.complete l dt c' = c')
    (hV : V.KeepsLevels) (fuel l : ℕ) (dt : K) (sub : ℕ × ℕ) (s : MBState ι S) (hok : (advanceLevel (multiSys B p0 order couple adv stable) fuel l dt sub s).2 = none) :
    if (B i).levelExists (s.blocks i) l
    then advanceLevel (V.withRatio (B p0).ratio) fuel l dt sub (o (s.blocks i)) = (o ((advanceLevel (multiSys B p0 order couple adv stable) fuel l dt sub s).1.blocks i), none)
    else o ((advanceLevel (multiSys B p0 order couple adv stable) fuel l dt sub s).1.blocks i) = o (s.blocks i) := by
  have := view_advance (multi_view (p0 := p0) (stable := stable) hn hi hS hJ hg hred) (withRatio_finer hV _) fuel l dt sub s hok
  have e : (V.withRatio (B p0).ratio).levelExists (o (s.blocks i)) l = (B i).levelExists (s.blocks i) l := hS.levelExists _ _
  rw [e] at this
  exact this

/-- **C148.** Blocks that are not connected do not influence each other: if the joint step is the step of every block on its own, then every block ends in the state of its own run. -/
theorem uncoupled_run {B : ι → LevelSys K S} {p0 : ι} {order : List ι} (hn : order.Nodup) {stable : (ι → S) → ℕ → K} {i : ι} (hi : i ∈ order)
    {adv : ℕ → K → ℕ × ℕ → (ι → S) → (ι → S) × Option (StepErr K)} (hg : (B i).NoGaps) (hB : (B i).KeepsLevels)
    (hred : ∀ l dt sub c c', (B i).adv l dt sub c = (c', none) → (B i).complete l dt c' = c')
    (hadv : ∀ l dt sub b, (adv l dt sub b).2 = none → if (B i).levelExists (b i) l then (B i).adv l dt sub (b i) = ((adv l dt sub b).1 i, none) else (adv l dt sub b).1 i = b i)
    (hr : (B p0).ratio = (B i).ratio) (fuel : ℕ) (dt : K) (s : MBState ι S) (h0 : (B i).levelExists (s.blocks i) 0 = true)
    (hok : (advanceLevel (multiSys B p0 order (fun _ b => b) adv stable) fuel 0 dt (0, 1) s).2 = none) :
    advanceLevel (B i) fuel 0 dt (0, 1) (s.blocks i) = ((advanceLevel (multiSys B p0 order (fun _ b => b) adv stable) fuel 0 dt (0, 1) s).1.blocks i, none) := by
  have hS : (B i).Shows (B i) id := ⟨fun _ _ => rfl, fun _ _ _ _ => rfl, fun _ _ _ => rfl, fun _ _ _ _ => rfl, fun _ _ _ => rfl, fun _ _ _ => rfl, fun _ _ => rfl, fun l dt sub s h => Prod.ext rfl h⟩
  have := block_run (p0 := p0) (stable := stable) hn hi hS ⟨fun _ _ => rfl, hadv⟩ hg hred hB fuel 0 dt (0, 1) s hok
  rw [if_pos h0] at this
  have e : (B i).withRatio (B p0).ratio = B i := by rw [hr]; rfl
  rw [e] at this
  exact this

/-- **C148 (ghost data).** The exchange between the blocks comes before a block fills its ghost cells, on the level that is filled: if the exchange on a level makes the
boundary data of this level valid in every block (`Fresh`), and a block with valid boundary data fills its ghost cells correctly (`Filled`), then the ghost cells of all
blocks with this level are correct after the ghost layers are filled, with and without a coarser level; and the boundary data is valid after the preparation of a step. -/
theorem exchange_before_fill {B : ι → LevelSys K S} {p0 : ι} {order : List ι} {couple : ℕ → (ι → S) → ι → S}
    {adv : ℕ → K → ℕ × ℕ → (ι → S) → (ι → S) × Option (StepErr K)} {stable : (ι → S) → ℕ → K} (Fresh Filled : ℕ → S → Prop) (l : ℕ)
    (hc : ∀ b i, Fresh l (couple l b i)) (hl : ∀ b i k, (B i).levelExists (couple l b i) k = (B i).levelExists (b i) k)
    (h1 : ∀ i s, Fresh l s → Filled l ((B i).fillSingle l s)) (h2 : ∀ i s c, Fresh l s → Filled l ((B i).fillTwo l c s))
    (s : MBState ι S) (i : ι) (hi : (B i).levelExists (s.blocks i) l = true) :
    Filled l (((multiSys B p0 order couple adv stable).fillSingle l s).blocks i) ∧
      (∀ c, Filled l (((multiSys B p0 order couple adv stable).fillTwo l c s).blocks i)) ∧
      ∀ dt sub, Fresh l (((multiSys B p0 order couple adv stable).pre l dt sub s).blocks i) := by
  refine ⟨?_, fun c => ?_, fun dt sub => hc _ _⟩
  · simp only [multiSys, forBlocks, hl, hi, if_true]
    exact h1 i _ (hc _ _)
  · simp only [multiSys, forBlocks, hl, hi, if_true]
    exact h2 i _ c (hc _ _)

end

/-! ### Clocks -/

section
variable {ι K S G Opt Meth Cb : Type} [Fintype ι] [DecidableEq ι] [Field K] [LinearOrder K]

theorem clockSys_exists_le (ratio : ℕ → ℕ) : (clockSys (K := K) (G := G) (Opt := Opt) (Meth := Meth) (Cb := Cb) ratio).NoGaps := by
  intro c l h
  have h1 : l + 1 < c.hier.length := of_decide_eq_true h
  exact decide_eq_true (by omega)

omit [Fintype ι] [DecidableEq ι] in
theorem clockSys_keeps (ratio : ℕ → ℕ) : (clockSys (K := K) (G := G) (Opt := Opt) (Meth := Meth) (Cb := Cb) ratio).KeepsLevels where
  pre := by
    intro l dt sub c k hk
    show decide (k < (c.preAdvanceLevel l sub).hier.length) = decide (k < c.hier.length)
    congr 1
    unfold Ctx.preAdvanceLevel
    split
    · split
      · rfl
      · split
        · have key : (k < (c.regridAllFiner l).1.hier.length) = (k < c.hier.length) := by
            unfold Ctx.regridAllFiner
            split
            · split
              · rename_i acts rest h _ hh
                have : l < c.hier.length := by
                  by_contra hc; rw [List.getElem?_eq_none (by omega)] at hh; cases hh
                simp only [List.length_append, List.length_take, eq_iff_iff]
                constructor
                · intro _; omega
                · intro _; omega
              · rfl
            · rfl
          dsimp only
          split
          · simpa only [Ctx.reset, Ctx.markRegrid] using key
          · simpa only [Ctx.markRegrid] using key
        · rfl
    · rfl
  reset := fun _ _ _ _ => rfl
  adv := fun _ _ _ _ _ => rfl
  corr := fun _ _ _ _ _ => rfl
  coarsen := fun _ _ _ _ => rfl
  complete := fun _ _ _ _ => rfl
  copyBack := by
    intro l c k
    have e : ((clockSys (K := K) (G := G) (Opt := Opt) (Meth := Meth) (Cb := Cb) ratio).copyBack l c).hier.length = c.hier.length := by
      simp only [clockSys]
      split
      · rfl
      · simp only [List.length_modify]
    exact congrArg (fun n => decide (k < n)) e
  post := by
    intro l dt sub c k
    show decide (k < (c.postAdvanceLevel l dt sub).hier.length) = decide (k < c.hier.length)
    congr 2
    unfold Ctx.postAdvanceLevel
    repeat' split
    all_goals simp

omit [Field K] [LinearOrder K] [Fintype ι] [DecidableEq ι] in
theorem postAdvanceHierarchy_data (c : Ctx K G Opt Meth Cb) : c.postAdvanceHierarchy.data = c.data := by
  unfold Ctx.postAdvanceHierarchy
  split <;> rfl

/-- **C148.** The clocks of all blocks agree: if the coarse clock of a block is at `T` in cycle `n`, then after a successful step of all blocks by `dt` it is at `T + dt` in cycle `n + 1`, whatever is regridded in this or other blocks. `clock` shows the clocks and levels of a block, which evolve according to the integrator context of a single block. -/
theorem mb_clocks {B : ι → LevelSys K S} {p0 : ι} {order : List ι} (hn : order.Nodup) {couple : ℕ → (ι → S) → ι → S}
    {adv : ℕ → K → ℕ × ℕ → (ι → S) → (ι → S) × Option (StepErr K)} {stable : (ι → S) → ℕ → K} {i : ι} (hi : i ∈ order) {ratio : ℕ → ℕ} (clock : S → Ctx K G Opt Meth Cb)
    (hS : (B i).Shows (clockSys ratio) clock) (hJ : JointOk B i (clockSys ratio) clock couple adv) (fuel : ℕ) (hM : 0 < fuel) (T dt : K) (n : ℤ) (s : MBState ι S)
    (hdata : ((clock (s.blocks i)).getTimePoint 0, (clock (s.blocks i)).getCycles 0) = (some T, some n))
    (hhier : ((clock (s.blocks i)).hier[0]?).map (fun h => (h.time, h.cycles)) = some (T, n))
    (hok : (advanceLevel (multiSys B p0 order couple adv stable) fuel 0 dt (0, 1) s).2 = none) :
    let c' := clock ((advanceLevel (multiSys B p0 order couple adv stable) fuel 0 dt (0, 1) s).1.blocks i)
    c'.getTimePoint 0 = some (T + dt) ∧ c'.getCycles 0 = some (n + 1) ∧ ∀ h ∈ c'.postAdvanceHierarchy.hier, h.time = T + dt := by
  have h := block_run (p0 := p0) (stable := stable) hn hi hS hJ (clockSys_exists_le ratio) (fun l dt sub c c' h => rfl) (clockSys_keeps ratio) fuel 0 dt (0, 1) s hok
  have h0 : (B i).levelExists (s.blocks i) 0 = true := by
    rw [← hS.levelExists]
    refine decide_eq_true ?_
    by_contra hc
    rw [List.getElem?_eq_none (by omega)] at hhier; cases hhier
  rw [if_pos h0] at h
  have e : (clockSys (K := K) (G := G) (Opt := Opt) (Meth := Meth) (Cb := Cb) ratio).withRatio (B p0).ratio = clockSys (B p0).ratio := rfl
  rw [e] at h
  obtain ⟨-, h1⟩ := coarse_clock_exact (B p0).ratio (clock (s.blocks i)) fuel hM T dt n hdata hhier
  rw [h] at h1
  dsimp only at h1 ⊢
  generalize clock ((advanceLevel (multiSys B p0 order couple adv stable) fuel 0 dt (0, 1) s).1.blocks i) = c' at h1
  obtain ⟨g1, g2, g3, -⟩ := h1
  refine ⟨?_, ?_, g3⟩
  · simpa only [Ctx.getTimePoint, postAdvanceHierarchy_data] using g1
  · simpa only [Ctx.getCycles, postAdvanceHierarchy_data] using g2

end

/-! ### Step sizes and changed levels -/

section
variable {K : Type} [LinearOrder K]

theorem minIfExists_fold (xs : List (Option K)) (a : K) :
    xs.foldl minIfExists a ≤ a ∧ (∀ v, some v ∈ xs → xs.foldl minIfExists a ≤ v) ∧ (xs.foldl minIfExists a = a ∨ some (xs.foldl minIfExists a) ∈ xs) := by
  induction xs generalizing a with
  | nil => exact ⟨le_rfl, fun v h => by simp at h, Or.inl rfl⟩
  | cons x xs ih =>
    rw [List.foldl_cons]
    obtain ⟨h1, h2, h3⟩ := ih (minIfExists a x)
    cases x with
    | none =>
      refine ⟨h1, fun v hv => h2 v ?_, ?_⟩
      · rcases List.mem_cons.1 hv with h | h
        · cases h
        · exact h
      · exact h3.imp id (List.mem_cons_of_mem _)
    | some v =>
      have hm : minIfExists a (some v) = min a v := rfl
      rw [hm] at h1 h2 h3 ⊢
      refine ⟨h1.trans (min_le_left _ _), fun w hw => ?_, ?_⟩
      · rcases List.mem_cons.1 hw with h | h
        · cases h; exact h1.trans (min_le_right _ _)
        · exact h2 w h
      · rcases h3 with h | h
        · rcases min_choice a v with h' | h'
          · left; rw [h, h']
          · right; rw [h, h']; exact List.mem_cons_self
        · right; exact List.mem_cons_of_mem _ h

/-- **C148.** The stable step of all blocks is not larger than that of any plenum with the level and, in the first direction, of any tube with the level, and it is one of them (or infinite if no block has the level). -/
theorem mb_stable_dt (big : K) (isX : Bool) (tubes plena : List (Option K)) :
    (∀ v, some v ∈ plena → mbStableDt big isX tubes plena ≤ v) ∧ (isX = true → ∀ v, some v ∈ tubes → mbStableDt big isX tubes plena ≤ v)
    ∧ (mbStableDt big isX tubes plena = big ∨ some (mbStableDt big isX tubes plena) ∈ plena ∨ isX = true ∧ some (mbStableDt big isX tubes plena) ∈ tubes) := by
  unfold mbStableDt
  obtain ⟨h1, h2, h3⟩ := minIfExists_fold plena (if isX then tubes.foldl minIfExists big else big)
  refine ⟨h2, ?_, ?_⟩
  · rintro rfl v hv
    rw [if_pos rfl] at h1 ⊢
    exact h1.trans ((minIfExists_fold tubes big).2.1 v hv)
  · rcases h3 with h | h
    · rw [h]
      cases isX with
      | false => left; rfl
      | true =>
        rw [if_pos rfl]
        exact ((minIfExists_fold tubes big).2.2).imp id fun h => Or.inr ⟨rfl, h⟩
    · exact Or.inr (Or.inl h)

end

/-- **C148.** The level reported by `PreAdvanceLevel` is at most the first changed level of every block, so all levels that changed in any block get new ghost cells. (Changed levels have numbers of at least one.) -/
theorem mb_pre_level (big maxLevels0 : ℕ) (blocks : List (Option ℕ)) (v : ℕ) (hv : some v ∈ blocks) (h1 : 1 ≤ v) : mbPreLevel big maxLevels0 blocks ≤ v := by
  unfold mbPreLevel
  dsimp only
  split
  · exact h1
  · exact (minIfExists_fold blocks big).2.1 v hv

/-! ### Source terms of the tubes -/

/-- **C148.** The source terms of the tubes: without failure every tube is advanced by its own term. -/
theorem mb_source {S T E : Type} (adv : T → S → S × Option E) (ts : List T) (ss : List S) (rs : List S) (h : mbSource adv ts ss = some (rs, none)) :
    ts.length = ss.length ∧ rs.length = ss.length ∧ ∀ (k : ℕ) (t : T) (s : S), ts[k]? = some t → ss[k]? = some s → ∃ r, rs[k]? = some r ∧ adv t s = (r, none) := by
  induction ts generalizing ss rs with
  | nil =>
    cases ss with
    | nil => simp only [mbSource, Option.some.injEq, Prod.mk.injEq] at h; obtain ⟨rfl, _⟩ := h; exact ⟨rfl, rfl, fun k t s h => by simp at h⟩
    | cons s ss => simp [mbSource] at h
  | cons t ts ih =>
    cases ss with
    | nil => simp [mbSource] at h
    | cons s ss =>
      rw [mbSource] at h
      cases ha : adv t s with
      | mk s' e =>
        rw [ha] at h
        cases e with
        | some e => simp at h
        | none =>
          simp only [Option.map_eq_some_iff, Prod.mk.injEq] at h
          obtain ⟨⟨r1, r2⟩, h1, rfl, h2⟩ := h
          simp only at h2; subst h2
          obtain ⟨g1, g2, g3⟩ := ih ss r1 h1
          refine ⟨by simp [g1], by simp [g2], fun k t' s' h3 h4 => ?_⟩
          cases k with
          | zero =>
            simp only [List.getElem?_cons_zero, Option.some.injEq] at h3 h4 ⊢
            subst h3 h4; exact ⟨_, rfl, ha⟩
          | succ k => simp only [List.getElem?_cons_succ] at h3 h4 ⊢; exact g3 k t' s' h3 h4

/-- **C148.** The step size reported for the source terms is not larger than that of any tube. -/
theorem mb_source_dt {S T K : Type} [LinearOrder K] (big : K) (dt : T → S → K) (ts : List T) (ss : List S) (k : ℕ) (t : T) (s : S) (ht : ts[k]? = some t) (hs : ss[k]? = some s) :
    mbSourceDt big dt ts ss ≤ dt t s := by
  unfold mbSourceDt
  have hm : (s, t) ∈ ss.zip ts := List.mem_of_getElem? (i := k) (by rw [List.getElem?_zip_eq_some]; exact ⟨hs, ht⟩)
  have key : ∀ (l : List (S × T)) (a : K), l.foldl (fun d p => min d (dt p.2 p.1)) a ≤ a ∧ ∀ p ∈ l, l.foldl (fun d p => min d (dt p.2 p.1)) a ≤ dt p.2 p.1 := by
    intro l
    induction l with
    | nil => exact fun a => ⟨le_rfl, fun p h => by simp at h⟩
    | cons q l ih =>
      intro a
      rw [List.foldl_cons]
      obtain ⟨h1, h2⟩ := ih (min a (dt q.2 q.1))
      refine ⟨h1.trans (min_le_left _ _), fun p hp => ?_⟩
      rcases List.mem_cons.1 hp with rfl | hp
      · exact h1.trans (min_le_right _ _)
      · exact h2 p hp
  exact (key _ big).2 _ hm

/-- **C148.** The terms that test for the level leave tubes without it alone and advance all others. -/
theorem mb_source_guarded {S T E : Type} (has : S → Bool) (adv : T → S → S × Option E) (ts : List T) (ss rs : List S) (h : mbSourceGuarded has adv ts ss = (rs, none)) :
    rs.length = ss.length ∧ ∀ (k : ℕ) (t : T) (s : S), ts[k]? = some t → ss[k]? = some s → ∃ r, rs[k]? = some r ∧ if has s then adv t s = (r, none) else r = s := by
  induction ts generalizing ss rs with
  | nil => simp only [mbSourceGuarded, Prod.mk.injEq] at h; obtain ⟨rfl, _⟩ := h; exact ⟨rfl, fun k t s h => by simp at h⟩
  | cons t ts ih =>
    cases ss with
    | nil => simp only [mbSourceGuarded, Prod.mk.injEq] at h; obtain ⟨rfl, _⟩ := h; exact ⟨rfl, fun k t s _ h => by simp at h⟩
    | cons s ss =>
      rw [mbSourceGuarded] at h
      by_cases hh : has s = true
      · rw [if_pos hh] at h
        cases ha : adv t s with
        | mk s' e =>
          rw [ha] at h
          cases e with
          | some e => simp at h
          | none =>
            simp only [Prod.mk.injEq] at h
            obtain ⟨rfl, h2⟩ := h
            obtain ⟨g1, g2⟩ := ih ss _ (Prod.ext rfl h2)
            refine ⟨by simp [g1], fun k t' s' h3 h4 => ?_⟩
            cases k with
            | zero =>
              simp only [List.getElem?_cons_zero, Option.some.injEq] at h3 h4 ⊢
              subst h3 h4; exact ⟨_, rfl, by rw [if_pos hh]; exact ha⟩
            | succ k => simp only [List.getElem?_cons_succ] at h3 h4 ⊢; exact g2 k t' s' h3 h4
      · rw [if_neg hh] at h
        simp only [Prod.mk.injEq] at h
        obtain ⟨rfl, h2⟩ := h
        obtain ⟨g1, g2⟩ := ih ss _ (Prod.ext rfl h2)
        refine ⟨by simp [g1], fun k t' s' h3 h4 => ?_⟩
        cases k with
        | zero =>
          simp only [List.getElem?_cons_zero, Option.some.injEq] at h3 h4 ⊢
          subst h3 h4; exact ⟨_, rfl, by rw [if_neg hh]⟩
        | succ k => simp only [List.getElem?_cons_succ] at h3 h4 ⊢; exact g2 k t' s' h3 h4

/-! ### Blocks with the same levels -/

section
variable {ι K S : Type} [Fintype ι] [DecidableEq ι] [Field K] [LinearOrder K]

/-- No undefined behaviour so far, all blocks have the same levels, level `l` among them. -/
def Aligned (B : ι → LevelSys K S) (p0 : ι) (l : ℕ) (s : MBState ι S) : Prop :=
  s.bad = false ∧ SameLevels B s.blocks ∧ (B p0).levelExists (s.blocks p0) l = true

omit [Fintype ι] [DecidableEq ι] [Field K] [LinearOrder K] in
theorem Aligned.keep {B : ι → LevelSys K S} {p0 : ι} {l : ℕ} {s s' : MBState ι S} (h : Aligned B p0 l s) (hb : s'.bad = s.bad)
    (hk : ∀ i k, (B i).levelExists (s'.blocks i) k = (B i).levelExists (s.blocks i) k) : Aligned B p0 l s' :=
  ⟨by rw [hb]; exact h.1, fun i j k => by rw [hk, hk]; exact h.2.1 i j k, by rw [hk]; exact h.2.2⟩

omit [Fintype ι] [DecidableEq ι] [Field K] [LinearOrder K] in
theorem forBlocks_levels {B : ι → LevelSys K S} (l : ℕ) (op : LevelSys K S → S → S) (i : ι) (k : ℕ) (h : ∀ s, (B i).levelExists (op (B i) s) k = (B i).levelExists s k) (b : ι → S) :
    (B i).levelExists (forBlocks B l op b i) k = (B i).levelExists (b i) k := by
  unfold forBlocks
  split
  · rw [h]
  · rfl

omit [Fintype ι] [Field K] [LinearOrder K] in
theorem mbPost_levels {B : ι → LevelSys K S} (hB : ∀ i, (B i).KeepsLevels) (l : ℕ) (dt : K) (sub : ℕ × ℕ) (order : List ι) (b : ι → S) (i : ι) (k : ℕ) :
    (B i).levelExists ((mbPost B l dt sub order b).1 i) k = (B i).levelExists (b i) k := by
  induction order generalizing b with
  | nil => rfl
  | cons j js ih =>
    rw [mbPost]
    have hu : ∀ s', (B j).levelExists s' k = (B j).levelExists (b j) k → (B i).levelExists (Function.update b j s' i) k = (B i).levelExists (b i) k := by
      intro s' h
      by_cases hij : i = j
      · subst hij; rw [Function.update_self]; exact h
      · rw [Function.update_of_ne hij]
    by_cases he : (B j).levelExists (b j) l = true
    · rw [if_pos he]
      have hp := (hB j).post l dt sub (b j) k
      generalize (B j).post l dt sub (b j) = x at hp ⊢
      obtain ⟨s', e⟩ := x
      cases e with
      | some e => exact hu _ hp
      | none => dsimp only; rw [ih]; exact hu _ hp
    · rw [if_neg he]; exact ih b

/-- **C149 (partial).** If all blocks have the same levels at the start and regridding keeps it so, then no step touches a level that a block does not have. Any coupling, any number of blocks and levels, also for steps that fail. -/
theorem mb_no_bad_partial {B : ι → LevelSys K S} {p0 : ι} {order : List ι} {couple : ℕ → (ι → S) → ι → S}
    {adv : ℕ → K → ℕ × ℕ → (ι → S) → (ι → S) × Option (StepErr K)} {stable : (ι → S) → ℕ → K} (hB : ∀ i, (B i).KeepsLevels) (hg : (B p0).NoGaps)
    (hc : ∀ l b i k, (B i).levelExists (couple l b i) k = (B i).levelExists (b i) k) (ha : ∀ l dt sub b i k, (B i).levelExists ((adv l dt sub b).1 i) k = (B i).levelExists (b i) k)
    (hpre : ∀ l dt sub b, SameLevels B b → SameLevels B (forBlocks B l (fun B => B.pre l dt sub) b))
    (fuel l : ℕ) (dt : K) (sub : ℕ × ℕ) (s : MBState ι S) (h : Aligned B p0 l s) : Aligned B p0 l (advanceLevel (multiSys B p0 order couple adv stable) fuel l dt sub s).1 := by
  induction fuel generalizing l dt sub s with
  | zero => exact h
  | succ fuel ih =>
    rw [advanceLevel_succ]
    have hM : ∀ s k, SameLevels B s.blocks → ((multiSys B p0 order couple adv stable).levelExists s k = true ↔ (B p0).levelExists (s.blocks p0) k = true) := by
      intro s k hs
      constructor
      · intro he
        obtain ⟨i, hi⟩ := of_decide_eq_true he
        rw [hs p0 i]; exact hi
      · intro he
        exact decide_eq_true ⟨p0, he⟩
    have h1 : Aligned B p0 l ((multiSys B p0 order couple adv stable).pre l dt sub s) := by
      have hl : (B p0).levelExists (couple l (forBlocks B l (fun B => B.pre l dt sub) s.blocks) p0) l = true := by
        rw [hc, forBlocks_levels l _ p0 l (fun s => (hB p0).pre l dt sub s l le_rfl)]
        exact h.2.2
      refine ⟨?_, ?_, hl⟩
      · show (s.bad || !(B p0).levelExists (couple l (forBlocks B l (fun B => B.pre l dt sub) s.blocks) p0) l) = false
        rw [hl, h.1]; rfl
      · intro i j k
        show (B i).levelExists (couple l _ i) k = (B j).levelExists (couple l _ j) k
        rw [hc, hc]
        exact hpre l dt sub s.blocks h.2.1 i j k
    generalize (multiSys B p0 order couple adv stable).pre l dt sub s = s1 at h1 ⊢
    have h2 : Aligned B p0 l (subPart (multiSys B p0 order couple adv stable) fuel l dt s1).1 := by
      unfold subPart
      by_cases hf : (multiSys B p0 order couple adv stable).levelExists s1 (l + 1) = true
      · rw [if_pos hf]
        have h3 : Aligned B p0 (l + 1) (forSub (fun r s => advanceLevel (multiSys B p0 order couple adv stable) fuel (l + 1) (dt / ((multiSys B p0 order couple adv stable).ratio (l + 1) : K)) (r, (multiSys B p0 order couple adv stable).ratio (l + 1)) s) ((multiSys B p0 order couple adv stable).ratio (l + 1)) 0 ((multiSys B p0 order couple adv stable).reset (l + 1) l s1)).1 := by
          refine forSub_inv (Aligned B p0 (l + 1)) _ (fun r s hs => ih (l + 1) _ _ s hs) _ _ _ ?_
          have h4 : Aligned B p0 (l + 1) s1 := ⟨h1.1, h1.2.1, (hM s1 (l + 1) h1.2.1).1 hf⟩
          exact h4.keep rfl fun i k => forBlocks_levels (B := B) (l + 1) (fun B => B.reset (l + 1) l) i k (fun s => (hB i).reset _ _ s k) s1.blocks
        exact ⟨h3.1, h3.2.1, hg _ _ h3.2.2⟩
      · rw [if_neg hf]; exact h1
    generalize subPart (multiSys B p0 order couple adv stable) fuel l dt s1 = x at h2 ⊢
    obtain ⟨x1, x2⟩ := x
    cases x2 with
    | some e => exact h2
    | none =>
      simp only [andThen]
      have h3 : Aligned B p0 l ((multiSys B p0 order couple adv stable).adv l dt sub x1).1 := h2.keep rfl fun i k => ha l dt sub x1.blocks i k
      generalize (multiSys B p0 order couple adv stable).adv l dt sub x1 = y at h3 ⊢
      obtain ⟨y1, y2⟩ := y
      cases y2 with
      | some e => exact h3
      | none =>
        simp only [scaleRes, Option.map_none]
        have h4 : Aligned B p0 l (midPart (multiSys B p0 order couple adv stable) l dt y1) := by
          unfold midPart
          dsimp only
          have h5 : Aligned B p0 l (if (multiSys B p0 order couple adv stable).levelExists y1 (l + 1) = true then (multiSys B p0 order couple adv stable).corr (l + 1) l dt y1 else y1) := by
            split
            · exact h3.keep rfl fun i k => forBlocks_levels (B := B) (l + 1) (fun B => B.corr (l + 1) l dt) i k (fun s => (hB i).corr _ _ _ s k) y1.blocks
            · exact h3
          generalize (if (multiSys B p0 order couple adv stable).levelExists y1 (l + 1) = true then (multiSys B p0 order couple adv stable).corr (l + 1) l dt y1 else y1) = z at h5 ⊢
          have h6 : Aligned B p0 l (if (multiSys B p0 order couple adv stable).levelExists z (l + 1) = true then (multiSys B p0 order couple adv stable).complete l dt ((multiSys B p0 order couple adv stable).coarsen (l + 1) l z) else z) := by
            split
            · have h7 : Aligned B p0 l ((multiSys B p0 order couple adv stable).coarsen (l + 1) l z) := h5.keep rfl fun i k => forBlocks_levels (B := B) (l + 1) (fun B => B.coarsen (l + 1) l) i k (fun s => (hB i).coarsen _ _ s k) z.blocks
              exact h7.keep rfl fun i k => forBlocks_levels (B := B) l (fun B => B.complete l dt) i k (fun s => (hB i).complete _ _ s k) _
            · exact h5
          generalize (if (multiSys B p0 order couple adv stable).levelExists z (l + 1) = true then (multiSys B p0 order couple adv stable).complete l dt ((multiSys B p0 order couple adv stable).coarsen (l + 1) l z) else z) = w at h6 ⊢
          refine h6.keep ?_ fun i k => forBlocks_levels (B := B) l (fun B => B.copyBack l) i k (fun s => (hB i).copyBack _ s k) w.blocks
          show (w.bad || decide (∃ i, (B i).levelExists (w.blocks i) l = false)) = w.bad
          have : ¬ ∃ i, (B i).levelExists (w.blocks i) l = false := by
            rintro ⟨i, hi⟩
            rw [h6.2.1 i p0, h6.2.2] at hi
            cases hi
          rw [decide_eq_false this, Bool.or_false]
        exact h4.keep rfl fun i k => mbPost_levels hB l dt sub order _ i k

end

/-! ### Concrete runs -/

/-- A block with `n` levels that do nothing. -/
def idleBlock (ratio : ℕ → ℕ) : LevelSys ℚ (Ctx ℚ ℕ Unit Unit Unit) := clockSys ratio

/-- A joint step that leaves all data alone. -/
def idleStep : ℕ → ℚ → ℕ × ℕ → (Fin 2 → Ctx ℚ ℕ Unit Unit Unit) → (Fin 2 → Ctx ℚ ℕ Unit Unit Unit) × Option (StepErr ℚ) := fun _ _ _ b => (b, none)

/-- Two blocks, the first (the plenum) has `n` levels, the second (the tube) `m`; nothing is regridded. -/
def twoBlocks (n m : ℕ) : MBState (Fin 2) (Ctx ℚ ℕ Unit Unit Unit) where
  blocks := fun i => { fourLevels with hier := List.replicate (if i = 0 then n else m) ⟨0, 0, 7⟩, data := List.replicate (if i = 0 then n else m) ⟨0, 0, 0, 7⟩, script := [] }
  bad := false

/-- One step of size one of `MultiBlockIntegratorContext2` with two blocks. -/
def twoBlockStep (s : MBState (Fin 2) (Ctx ℚ ℕ Unit Unit Unit)) : MBState (Fin 2) (Ctx ℚ ℕ Unit Unit Unit) × Option (StepErr ℚ) :=
  advanceLevel (multiSys (fun _ => idleBlock fun _ => 2) 0 [1, 0] (fun _ b => b) idleStep (fun _ _ => 0)) 4 0 1 (0, 1) s

/-- **C149 is false.** With two levels in the plenum and one in the tube (or the other way round) a step touches a level that does not exist: `CopyScratchToData` is called for all blocks without a test (and the time point of the level is read from the first plenum). -/
theorem mb_bad : (twoBlockStep (twoBlocks 2 1)).1.bad = true ∧ (twoBlockStep (twoBlocks 1 2)).1.bad = true := by decide +kernel

/-- With the same number of levels everything is fine, and both clocks are advanced. -/
example : (twoBlockStep (twoBlocks 3 3)).1.bad = false ∧ (twoBlockStep (twoBlocks 3 3)).2 = none ∧
    ((twoBlockStep (twoBlocks 3 3)).1.blocks 0).getTimePoint 2 = some 1 ∧ ((twoBlockStep (twoBlocks 3 3)).1.blocks 1).getTimePoint 2 = some 1 ∧
    ((twoBlockStep (twoBlocks 3 3)).1.blocks 1).getCycles 2 = some 4 := by decide +kernel

/-- The joint step of the example meets the hypotheses of `block_run`, `mb_clocks` and `uncoupled_run`. -/
example : (idleBlock fun _ => 2).Shows (clockSys fun _ => 2) id ∧ JointOk (fun _ : Fin 2 => idleBlock fun _ => 2) 1 (clockSys fun _ => 2) id (fun _ b => b) idleStep :=
  ⟨⟨fun _ _ => rfl, fun _ _ _ _ => rfl, fun _ _ _ => rfl, fun _ _ _ _ => rfl, fun _ _ _ => rfl, fun _ _ _ => rfl, fun _ _ => rfl, fun _ _ _ _ _ => rfl⟩,
    ⟨fun _ _ => rfl, fun l dt sub b _ => by simp [idleStep, clockSys]⟩⟩

/-- A tube without the second level is not touched by the steps of this level: its single level makes one step of the full size. -/
example : ((twoBlockStep (twoBlocks 2 1)).1.blocks 1).getTimePoint 0 = some 1 ∧ ((twoBlockStep (twoBlocks 2 1)).1.blocks 1).getCycles 0 = some 1 ∧
    ((twoBlockStep (twoBlocks 2 1)).1.blocks 0).getCycles 1 = some 2 := by decide +kernel

/-- Blocks that remember the level whose boundary data they got last, and the level they filled; the exchange sets the first number. They meet the hypotheses of
`exchange_before_fill`. -/
def noteBlock : LevelSys ℚ (ℕ × ℕ) where
  levelExists := fun _ l => decide (l < 2)
  ratio := fun _ => 2
  stableDt := fun _ _ => 1
  pre := fun _ _ _ s => s
  reset := fun _ _ s => s
  adv := fun _ _ _ s => (s, none)
  corr := fun _ _ _ s => s
  coarsen := fun _ _ s => s
  complete := fun _ _ s => s
  copyBack := fun _ s => s
  fillSingle := fun _ s => (s.1, s.1)
  fillTwo := fun _ _ s => (s.1, s.1)
  post := fun _ _ _ s => (s, none)
  cycles := fun _ => 0

example : (∀ (b : Fin 2 → ℕ × ℕ) (i : Fin 2), (fun l (s : ℕ × ℕ) => s.1 = l) 1 ((fun l b i => (l, (b i).2) : ℕ → (Fin 2 → ℕ × ℕ) → Fin 2 → ℕ × ℕ) 1 b i)) ∧
    (∀ s : ℕ × ℕ, s.1 = 1 → (noteBlock.fillTwo 1 0 s).2 = 1) ∧ noteBlock.levelExists (0, 0) 1 = true :=
  ⟨fun _ _ => rfl, fun _ h => h, rfl⟩

/-- The hypotheses of `mb_no_bad_partial` are met. -/
example : Aligned (fun _ : Fin 2 => idleBlock fun _ => 2) 0 0 (twoBlocks 3 3) := ⟨rfl, fun _ _ _ => by simp [twoBlocks, idleBlock, clockSys], by decide +kernel⟩

/-- **C149 is false for tubes.** After a step with a regrid in the middle the hierarchy of a tube stores a wrong time for a level, because only the plena are told that the step has ended; for a plenum the same state is repaired. -/
theorem mb_tube_times_wrong :
    let c := (advanceLevel (clockSys (fun _ => 2)) 4 0 1 (0, 1) fourLevels).1
    let r := mbPostHierarchy [c] [c]
    r.1.map (fun c => c.hier.map (·.time)) = [[1, 1 / 2, 1, 1]] ∧ r.2.map (fun c => c.hier.map (·.time)) = [[1, 1, 1, 1]] := by decide +kernel

example : mbStableDt (100 : ℚ) true [some 3, none, some 5] [some 4] = 3 ∧ mbStableDt (100 : ℚ) false [some 3, none, some 5] [some 4] = 4 := by decide +kernel

example : mbPreLevel 1000 3 [some 3, some 2, none] = 2 ∧ mbPreLevel 1000 3 [some 3, some 3] = 1 := by decide +kernel

example : mbSource (fun (t s : ℤ) => (s + t, if s = 0 then some "bad" else none)) [1, 2] [10, 20] = some ([11, 22], none) ∧
    mbSource (fun (t s : ℤ) => (s + t, if s = 0 then some "bad" else none)) [1, 2, 3] [10, 0, 5] = some ([11, 2, 5], some "bad") := by decide +kernel

example : mbSourceGuarded (fun s : ℤ => s != 7) (fun (t s : ℤ) => (s + t, if s = 0 then some "bad" else none)) [1, 2, 3] [10, 7, 5] = ([11, 7, 8], none) := by decide +kernel

end Fub
