import Verif.Spec.NodalLevels
import Mathlib.Algebra.Order.Field.Basic
import Mathlib.Algebra.Order.BigOperators.Group.Finset
import Mathlib.Algebra.BigOperators.Ring.Finset
import Mathlib.Tactic.Ring
import Mathlib.Tactic.Linarith
import Mathlib.Tactic.FieldSimp
import Mathlib.Tactic.NormNum

/-!
C189: the coefficients of the nodal operator on all levels.
-/

namespace Fub
open Finset

variable {K : Type}

/-- Nothing but `m_sigma` differs. -/
structure HelmStore.OnlySigma (s t : HelmStore K) : Prop where
  harmonic : t.harmonic = s.harmonic
  aliased : t.aliased = s.aliased
  cross : t.cross = s.cross
  alpha : t.alpha = s.alpha

theorem HelmStore.OnlySigma.refl (s : HelmStore K) : s.OnlySigma s := ⟨rfl, rfl, rfl, rfl⟩

theorem HelmStore.OnlySigma.trans {s t u : HelmStore K} (h : s.OnlySigma t) (k : t.OnlySigma u) : s.OnlySigma u :=
  ⟨k.1.trans h.1, k.2.trans h.2, k.3.trans h.3, k.4.trans h.4⟩

theorem setSig_only (s : HelmStore K) (a m : ℕ) (d : Fin 2) (f : ℤ → ℤ → K) : s.OnlySigma (s.setSig a m d f) := ⟨rfl, rfl, rfl, rfl⟩

theorem sigmaAt_zero (s : HelmStore K) (a m : ℕ) : s.sigmaAt a m 0 = s.sigma a m 0 := by simp [HelmStore.sigmaAt]

theorem sigmaAt_pos (s : HelmStore K) (a m : ℕ) (d : Fin 2) (hm : 0 < m) : s.sigmaAt a m d = s.sigma a m d := by
  have : ¬ m = 0 := by omega
  simp [HelmStore.sigmaAt, this]

theorem sigmaAt_congr {s t : HelmStore K} {a m : ℕ} {d : Fin 2} (ha : t.aliased = s.aliased) (h0 : t.sigma a 0 0 = s.sigma a 0 0)
    (h : t.sigma a m d = s.sigma a m d) : t.sigmaAt a m d = s.sigmaAt a m d := by
  simp [HelmStore.sigmaAt, ha, h0, h]

section Field
variable [Field K]

theorem avgdownOne_spec (g : HelmGrids K) {a m : ℕ} {d : Fin 2} {s : HelmStore K} {f c : ℤ → ℤ → K}
    (hf : s.sigmaAt a (m - 1) d = some f) (hc : s.sigma a m d = some c) :
    avgdownOne g a m d s = some (s.setSig a m d (copyValid (g.cells a m) c (avgdownDir d f))) := by
  simp [avgdownOne, hf, hc]

/-- One coarser multigrid level. -/
theorem avgdownLevel_spec (g : HelmGrids K) {a m : ℕ} (hm : 0 < m) {s : HelmStore K}
    (hf : ∀ d, s.active d → (s.sigmaAt a (m - 1) d).isSome) (hc : ∀ d, s.active d → (s.sigma a m d).isSome) :
    ∃ t, avgdownLevel g a m s = some t ∧ s.OnlySigma t ∧ (∀ a' m' d', ¬ (a' = a ∧ m' = m) → t.sigma a' m' d' = s.sigma a' m' d') ∧
      ∀ d, s.active d → ∃ f c, s.sigmaAt a (m - 1) d = some f ∧ t.sigma a m d = some (copyValid (g.cells a m) c (avgdownDir d f)) := by
  obtain ⟨f0, hf0⟩ := Option.isSome_iff_exists.1 (hf 0 (Or.inl rfl))
  obtain ⟨c0, hc0⟩ := Option.isSome_iff_exists.1 (hc 0 (Or.inl rfl))
  by_cases hh : s.harmonic = true
  · obtain ⟨f1, hf1⟩ := Option.isSome_iff_exists.1 (hf 1 (Or.inr hh))
    obtain ⟨c1, hc1⟩ := Option.isSome_iff_exists.1 (hc 1 (Or.inr hh))
    set u := s.setSig a m 0 (copyValid (g.cells a m) c0 (avgdownDir 0 f0)) with hu
    have hf1' : u.sigmaAt a (m - 1) 1 = some f1 := by
      rw [← hf1]
      refine sigmaAt_congr rfl ?_ ?_
      · have : ¬ 0 = m := by omega
        simp [hu, HelmStore.setSig, this]
      · simp [hu, HelmStore.setSig]
    have hc1' : u.sigma a m 1 = some c1 := by simp [hu, HelmStore.setSig, hc1]
    refine ⟨u.setSig a m 1 (copyValid (g.cells a m) c1 (avgdownDir 1 f1)), ?_, ⟨rfl, rfl, rfl, rfl⟩, ?_, ?_⟩
    · have hh' : u.harmonic = true := hh
      rw [avgdownLevel, avgdownOne_spec g hf0 hc0, ← hu]
      simp only [Option.bind_eq_bind, Option.bind_some, hh', if_true]
      exact avgdownOne_spec g hf1' hc1'
    · intro a' m' d' h
      have h1 : ¬ (a' = a ∧ m' = m ∧ d' = 0) := fun k => h ⟨k.1, k.2.1⟩
      have h2 : ¬ (a' = a ∧ m' = m ∧ d' = 1) := fun k => h ⟨k.1, k.2.1⟩
      simp [hu, HelmStore.setSig, h1, h2]
    · intro d _
      match d with
      | 0 => exact ⟨f0, c0, hf0, by simp [hu, HelmStore.setSig]⟩
      | 1 => exact ⟨f1, c1, hf1, by simp [HelmStore.setSig]⟩
  · refine ⟨s.setSig a m 0 (copyValid (g.cells a m) c0 (avgdownDir 0 f0)), ?_, ⟨rfl, rfl, rfl, rfl⟩, ?_, ?_⟩
    · have hh' : (s.setSig a m 0 (copyValid (g.cells a m) c0 (avgdownDir 0 f0))).harmonic = false := by simpa [HelmStore.setSig] using hh
      rw [avgdownLevel, avgdownOne_spec g hf0 hc0]
      simp [hh']
    · intro a' m' d' h
      have h1 : ¬ (a' = a ∧ m' = m ∧ d' = 0) := fun k => h ⟨k.1, k.2.1⟩
      simp [HelmStore.setSig, h1]
    · intro d hd
      rcases hd with rfl | hd
      · exact ⟨f0, c0, hf0, by simp [HelmStore.setSig]⟩
      · exact absurd hd hh

/-- Every array of the multigrid levels of refinement level `a` exists. -/
def HelmStore.Allocated (g : HelmGrids K) (s : HelmStore K) (a : ℕ) : Prop := ∀ m < g.nmg a, ∀ d, s.active d → (s.sigmaAt a m d).isSome

/-- The first `n` coarser multigrid levels of refinement level `a` hold the averages of the next finer ones. -/
def HelmStore.MgCons (g : HelmGrids K) (s : HelmStore K) (a n : ℕ) : Prop :=
  ∀ m < n, ∀ d, s.active d → ∃ f c, s.sigmaAt a m d = some f ∧ s.sigma a (m + 1) d = some (copyValid (g.cells a (m + 1)) c (avgdownDir d f))

theorem avgdownSame_spec (g : HelmGrids K) (a : ℕ) (n : ℕ) (hn : n + 1 ≤ g.nmg a) {s : HelmStore K} (hs : s.Allocated g a) :
    ∃ t, avgdownSame g a n s = some t ∧ s.OnlySigma t ∧ (∀ a' m' d', ¬ (a' = a ∧ 0 < m' ∧ m' ≤ n) → t.sigma a' m' d' = s.sigma a' m' d') ∧
      t.Allocated g a ∧ t.MgCons g a n := by
  induction n with
  | zero => exact ⟨s, rfl, .refl s, fun _ _ _ _ => rfl, hs, fun m hm => absurd hm (by omega)⟩
  | succ n ih =>
    obtain ⟨t, ht, ho, hu, hal, hc⟩ := ih (by omega)
    have hact : ∀ d, t.active d ↔ s.active d := fun d => by simp [HelmStore.active, ho.harmonic]
    obtain ⟨u, hu1, hou, hus, hud⟩ := avgdownLevel_spec g (a := a) (m := n + 1) (by omega) (s := t)
      (fun d hd => hal n (by omega) d hd)
      (fun d hd => by have := hal (n + 1) (by omega) d hd; rwa [sigmaAt_pos _ _ _ _ (by omega)] at this)
    have hact' : ∀ d, u.active d ↔ t.active d := fun d => by simp [HelmStore.active, hou.harmonic]
    have hat : ∀ m d, m ≤ n → u.sigmaAt a m d = t.sigmaAt a m d := fun m d hm =>
      sigmaAt_congr hou.aliased (hus a 0 0 (by omega)) (hus a m d (by omega))
    refine ⟨u, by rw [avgdownSame, ht]; exact hu1, ho.trans hou, ?_, ?_, ?_⟩
    · intro a' m' d' h
      rw [hus a' m' d' (by omega), hu a' m' d' (by omega)]
    · intro m hm d hd
      by_cases hmn : m = n + 1
      · obtain ⟨f, c, _, h2⟩ := hud d ((hact' d).1 hd)
        rw [hmn, sigmaAt_pos _ _ _ _ (by omega), h2]; rfl
      · rw [sigmaAt_congr hou.aliased (hus a 0 0 (by omega)) (hus a m d (by omega))]
        exact hal m hm d ((hact' d).1 hd)
    · intro m hm d hd
      by_cases hmn : m = n
      · obtain ⟨f, c, h1, h2⟩ := hud d ((hact' d).1 hd)
        rw [hmn]
        exact ⟨f, c, by rw [hat n d (le_refl n)]; simpa using h1, h2⟩
      · obtain ⟨f, c, h1, h2⟩ := hc m (by omega) d ((hact' d).1 hd)
        exact ⟨f, c, by rw [hat m d (by omega)]; exact h1, by rw [hus a (m + 1) d (by omega)]; exact h2⟩

theorem avgdownAmr_spec (g : HelmGrids K) {b : ℕ} {s : HelmStore K} {f c : ℤ → ℤ → K} (hf : s.sigma (b + 1) 0 0 = some f) (hc : s.sigma b 0 0 = some c) :
    avgdownAmr g (b + 1) s = some (s.setSig b 0 0 (amrAverage (g.ratio b) (g.cells (b + 1) 0) (g.cells b 0) f c)) := by
  simp [avgdownAmr, hf, hc]

/-- The loop over the refinement levels. -/
theorem avgdownAll_spec {g : HelmGrids K} (hg : g.Wf) (n : ℕ) (hn : n < g.namr) {s : HelmStore K} (hs : ∀ a < g.namr, s.Allocated g a) :
    ∃ t, avgdownAll g n s = some t ∧ s.OnlySigma t ∧ (∀ a < g.namr, t.Allocated g a) ∧
      (∀ a m d, n < a → t.sigma a m d = s.sigma a m d) ∧ (∀ d, t.sigma n 0 d = s.sigma n 0 d) ∧
      (∀ a, 0 < a → a ≤ n → t.MgCons g a (g.nmg a - 1)) ∧
      (∀ a < n, ∃ f c, t.sigma (a + 1) 0 0 = some f ∧ s.sigma a 0 0 = some c ∧ t.sigma a 0 0 = some (amrAverage (g.ratio a) (g.cells (a + 1) 0) (g.cells a 0) f c)) := by
  induction n generalizing s with
  | zero => exact ⟨s, rfl, .refl s, hs, fun _ _ _ _ => rfl, fun _ => rfl, fun a h1 h2 => absurd h1 (by omega), fun a h => absurd h (by omega)⟩
  | succ n ih =>
    have hmg := hg.mg (n + 1) hn
    obtain ⟨t, ht, hot, hut, halt, hct⟩ := avgdownSame_spec g (n + 1) (g.nmg (n + 1) - 1) (by omega) (hs (n + 1) hn)
    obtain ⟨f, hf⟩ := Option.isSome_iff_exists.1 (halt 0 hmg 0 (Or.inl rfl))
    rw [sigmaAt_zero] at hf
    obtain ⟨c, hc⟩ := Option.isSome_iff_exists.1 (hs n (by omega) 0 (hg.mg n (by omega)) 0 (Or.inl rfl))
    rw [sigmaAt_zero] at hc
    have hc' : t.sigma n 0 0 = some c := by rw [hut n 0 0 (by omega), hc]
    set u := t.setSig n 0 0 (amrAverage (g.ratio n) (g.cells (n + 1) 0) (g.cells n 0) f c) with hu
    have hou : t.OnlySigma u := setSig_only ..
    have hus : ∀ a m d, ¬ (a = n ∧ m = 0 ∧ d = 0) → u.sigma a m d = t.sigma a m d := fun a m d h => by
      simp only [hu, HelmStore.setSig, h, if_false]
    have hun : u.sigma n 0 0 = some (amrAverage (g.ratio n) (g.cells (n + 1) 0) (g.cells n 0) f c) := by simp [hu, HelmStore.setSig]
    have hactu : ∀ d, u.active d ↔ s.active d := fun d => by simp [HelmStore.active, hou.harmonic, hot.harmonic]
    have halu : ∀ a < g.namr, u.Allocated g a := by
      intro a ha m hm d hd
      have hd' := (hactu d).1 hd
      by_cases han : a = n + 1
      · rw [han] at hm ⊢
        rw [sigmaAt_congr hou.aliased (hus (n + 1) 0 0 (by omega)) (hus (n + 1) m d (by omega))]
        exact halt m hm d (by simpa [HelmStore.active, hot.harmonic] using hd')
      · have hst := hs a ha m hm d hd'
        have key : ∀ m' d', (s.sigma a m' d').isSome → (u.sigma a m' d').isSome := fun m' d' h => by
          by_cases hk : a = n ∧ m' = 0 ∧ d' = 0
          · rw [hk.1, hk.2.1, hk.2.2, hun]; rfl
          · rw [hus a m' d' hk, hut a m' d' (by omega)]; exact h
        unfold HelmStore.sigmaAt at hst ⊢
        rw [hou.aliased, hot.aliased]
        split at hst
        · split at hst
          · next h1 h2 => simp only [h1, h2, and_self, if_true]; exact key 0 0 hst
          · exact absurd hst (by simp)
        · next h1 => simp only [h1, if_false]; exact key m d hst
    obtain ⟨v, hv, hov, halv, hva, hvn, hvm, hvc⟩ := ih (by omega) halu
    have hvact : ∀ d, v.active d ↔ t.active d := fun d => by simp [HelmStore.active, hov.harmonic, hou.harmonic]
    refine ⟨v, ?_, (hot.trans hou).trans hov, halv, ?_, ?_, ?_, ?_⟩
    · rw [avgdownAll, ht, Option.bind_some, avgdownAmr_spec g hf hc', Option.bind_some, ← hu]; exact hv
    · intro a m d ha
      rw [hva a m d (by omega), hus a m d (by omega), hut a m d (by omega)]
    · intro d
      rw [hva (n + 1) 0 d (by omega), hus (n + 1) 0 d (by omega), hut (n + 1) 0 d (by omega)]
    · intro a h1 h2
      by_cases han : a = n + 1
      · rw [han]
        intro m hm d hd
        obtain ⟨f', c', k1, k2⟩ := hct m hm d ((hvact d).1 hd)
        have hs1 : ∀ m d, v.sigma (n + 1) m d = t.sigma (n + 1) m d := fun m d => by
          rw [hva (n + 1) m d (by omega), hus (n + 1) m d (by omega)]
        refine ⟨f', c', ?_, by rw [hs1, k2]⟩
        rw [sigmaAt_congr (s := t) (by rw [hov.aliased, hou.aliased]) (hs1 0 0) (hs1 m d), k1]
      · exact hvm a h1 (by omega)
    · intro a ha
      by_cases han : a = n
      · rw [han]
        refine ⟨f, c, ?_, hc, by rw [hvn 0, hun]⟩
        rw [hva (n + 1) 0 0 (by omega), hus (n + 1) 0 0 (by omega), hf]
      · obtain ⟨f', c', k1, k2, k3⟩ := hvc a (by omega)
        refine ⟨f', c', k1, ?_, k3⟩
        rw [← k2, hus a 0 0 (by omega), hut a 0 0 (by omega)]

/-- The arrays every call relies on: those of multigrid level 0 exist, and neither cross coefficients nor a diagonal exist on a coarser one. -/
structure HelmStore.Ok (g : HelmGrids K) (s : HelmStore K) : Prop where
  sigma : ∀ a < g.namr, (s.sigma a 0 0).isSome
  cross : ∀ a < g.namr, (s.cross a 0).isSome
  alpha : ∀ a < g.namr, (s.alpha a 0).isSome
  none : ∀ a m, 0 < m → s.cross a m = none ∧ s.alpha a m = none

theorem allocate_allocated {g : HelmGrids K} {s : HelmStore K} (hs : s.Ok g) (a : ℕ) (ha : a < g.namr) : (helmAllocate g s).Allocated g a := by
  intro m hm d hd
  have h0 : ((helmAllocate g s).sigma a 0 0).isSome := by simpa [helmAllocate] using hs.sigma a ha
  unfold HelmStore.sigmaAt
  by_cases hc : m = 0 ∧ d = 1
  · have hh : s.harmonic = true := by
      rcases hd with rfl | hd
      · exact absurd hc.2 (by decide)
      · exact hd
    have hal : (helmAllocate g s).aliased a = true := by
      have : 0 < g.nmg a := by omega
      simp [helmAllocate, hh, ha, this]
    simp only [hc, and_self, if_true, hal]
    exact h0
  · simp only [hc, if_false]
    by_cases hm0 : m = 0
    · have hd0 : d = 0 := by
        match d with
        | 0 => rfl
        | 1 => exact absurd ⟨hm0, rfl⟩ hc
      rw [hm0, hd0]; exact h0
    · have hpos : 0 < m := by omega
      have hd' : d = 0 ∨ s.harmonic = true := hd
      by_cases hn : (s.sigma a m d).isNone
      · have : a < g.namr ∧ m < g.nmg a ∧ 0 < m ∧ (d = 0 ∨ s.harmonic = true) ∧ (s.sigma a m d).isNone = true := ⟨ha, hm, hpos, hd', hn⟩
        simp only [helmAllocate, this, and_self, if_true]; rfl
      · have : ¬ (a < g.namr ∧ m < g.nmg a ∧ 0 < m ∧ (d = 0 ∨ s.harmonic = true) ∧ (s.sigma a m d).isNone = true) := fun k => hn k.2.2.2.2
        simp only [helmAllocate, this, if_false]
        simpa [Option.isSome_iff_ne_none] using hn

theorem fillCoeff_valid {g : HelmGrids K} (hg : g.Wf) {a m : ℕ} (ha : a < g.namr) (hm : m < g.nmg a) (f : ℤ → ℤ → K) {i j : ℤ} (h : g.cells a m i j = true) :
    fillCoeff g a m f i j = f i j := by
  rw [fillCoeff, hg.mirror a m ha hm _ i j h, hg.exchange a m ha hm _ i j h]

/-- **C189.** `prepareForSolve` always succeeds. Afterwards the finest refinement level holds the coefficient it was given, a coarser one holds the mean of the next finer one under its grids and what it was given elsewhere, and a coarser multigrid level holds the average of the next finer one, all of them as they are in the end. -/
theorem helm_prepare_consistent {g : HelmGrids K} (hg : g.Wf) {s : HelmStore K} (hs : s.Ok g) :
    ∃ t, helmPrepare g s = some t ∧ t.Ok g ∧ t.harmonic = s.harmonic ∧ t.alpha = s.alpha ∧
      ∃ (G : ℕ → ℤ → ℤ → K) (S : ℕ → ℕ → Fin 2 → ℤ → ℤ → K),
        (∀ a < g.namr, s.sigma a 0 0 = some (G a)) ∧
        (∀ a < g.namr, ∀ m < g.nmg a, ∀ d, s.active d → t.sigmaAt a m d = some (S a m d)) ∧
        (∀ a < g.namr, s.harmonic = true → S a 0 1 = S a 0 0) ∧
        (∀ a < g.namr, ∀ i j, g.cells a 0 i j = true → ¬ g.covered a i j → S a 0 0 i j = G a i j) ∧
        (∀ a < g.namr, ∀ i j, g.cells a 0 i j = true → g.covered a i j →
          S a 0 0 i j = (∑ p ∈ range (g.ratio a), ∑ q ∈ range (g.ratio a), S (a + 1) 0 0 (g.ratio a * i + p) (g.ratio a * j + q)) / ((g.ratio a : K) * g.ratio a)) ∧
        (∀ a < g.namr, ∀ m, m + 1 < g.nmg a → ∀ d, s.active d → ∀ i j, g.cells a (m + 1) i j = true → S a (m + 1) d i j = avgdownDir d (S a m d) i j) := by
  have hamr := hg.amr
  obtain ⟨t1, h1, ho1, hal1, _, htop, hmg1, hamr1⟩ := avgdownAll_spec hg (g.namr - 1) (by omega) (s := helmAllocate g s) (allocate_allocated hs)
  obtain ⟨t2, h2, ho2, hu2, hal2, hmg2⟩ := avgdownSame_spec g 0 (g.nmg 0 - 1) (by have := hg.mg 0 hamr; omega) (hal1 0 hamr)
  have hact2 : ∀ d, t2.active d ↔ s.active d := fun d => by simp [HelmStore.active, ho2.harmonic, ho1.harmonic, helmAllocate]
  have hact1 : ∀ d, t1.active d ↔ s.active d := fun d => by simp [HelmStore.active, ho1.harmonic, helmAllocate]
  have hall : ∀ a < g.namr, t2.Allocated g a := by
    intro a ha
    by_cases h : a = 0
    · rw [h]; exact hal2
    · intro m hm d hd
      rw [sigmaAt_congr ho2.aliased (hu2 a 0 0 (by omega)) (hu2 a m d (by omega))]
      exact hal1 a ha m hm d ((hact1 d).2 ((hact2 d).1 hd))
  have hmg : ∀ a < g.namr, t2.MgCons g a (g.nmg a - 1) := by
    intro a ha
    by_cases h : a = 0
    · rw [h]; exact hmg2
    · intro m hm d hd
      obtain ⟨f, c, k1, k2⟩ := hmg1 a (by omega) (by omega) m hm d ((hact1 d).2 ((hact2 d).1 hd))
      exact ⟨f, c, by rw [sigmaAt_congr ho2.aliased (hu2 a 0 0 (by omega)) (hu2 a m d (by omega)), k1], by rw [hu2 a (m + 1) d (by omega), k2]⟩
  have halloc0 : ∀ a, (helmAllocate g s).sigma a 0 0 = s.sigma a 0 0 := fun a => by simp [helmAllocate]
  have ham : ∀ a, a + 1 < g.namr → ∃ f c, t2.sigma (a + 1) 0 0 = some f ∧ s.sigma a 0 0 = some c ∧ t2.sigma a 0 0 = some (amrAverage (g.ratio a) (g.cells (a + 1) 0) (g.cells a 0) f c) := by
    intro a ha
    obtain ⟨f, c, k1, k2, k3⟩ := hamr1 a (by omega)
    exact ⟨f, c, by rw [hu2 (a + 1) 0 0 (by omega), k1], by rw [← halloc0, k2], by rw [hu2 a 0 0 (by omega), k3]⟩
  have htop2 : t2.sigma (g.namr - 1) 0 0 = s.sigma (g.namr - 1) 0 0 := by rw [hu2 _ 0 0 (by omega), htop 0, halloc0]
  set t := helmFill g t2 with ht
  have hcr2 : t2.cross = s.cross := by rw [ho2.cross, ho1.cross]; rfl
  have hal2' : t2.alpha = s.alpha := by rw [ho2.alpha, ho1.alpha]; rfl
  have hh2 : t2.harmonic = s.harmonic := by rw [ho2.harmonic, ho1.harmonic]; rfl
  have hfill : ∀ a < g.namr, ∀ m < g.nmg a, ∀ d, s.active d → t.sigmaAt a m d = (t2.sigmaAt a m d).map (fillCoeff g a m) := by
    intro a ha m hm d hd
    have h00 : t.sigma a 0 0 = (t2.sigma a 0 0).map (fillCoeff g a 0) := by
      have := hg.mg a ha
      simp [ht, helmFill, ha, this]
    unfold HelmStore.sigmaAt
    by_cases hc : m = 0 ∧ d = 1
    · have : t.aliased = t2.aliased := rfl
      simp only [hc, and_self, if_true, this]
      split
      · exact h00
      · rfl
    · simp only [hc, if_false]
      have hcond : a < g.namr ∧ m < g.nmg a ∧ (d = 0 ∨ (t2.harmonic = true ∧ 0 < m)) := by
        refine ⟨ha, hm, ?_⟩
        rcases hd with hd | hd
        · exact Or.inl hd
        · match d with
          | 0 => exact Or.inl rfl
          | 1 => exact Or.inr ⟨by rw [hh2, hd], by by_contra h0; exact hc ⟨by omega, rfl⟩⟩
      simp only [ht, helmFill, hcond, and_self, if_true]
  refine ⟨t, ?_, ?_, ?_, ?_, fun a => (s.sigma a 0 0).getD fun _ _ => 0, fun a m d => (t.sigmaAt a m d).getD fun _ _ => 0, ?_, ?_, ?_, ?_, ?_, ?_⟩
  · rw [helmPrepare, h1, Option.bind_some, h2]; rfl
  · refine ⟨?_, ?_, ?_, ?_⟩
    · intro a ha
      have h := hall a ha 0 (hg.mg a ha) 0 (Or.inl rfl)
      have := hfill a ha 0 (hg.mg a ha) 0 (Or.inl rfl)
      rw [sigmaAt_zero, sigmaAt_zero] at this
      rw [sigmaAt_zero] at h
      rw [this]; simpa using h
    · intro a ha
      have h := hs.cross a ha
      rw [← hcr2] at h
      simp only [ht, helmFill]
      split
      · simpa using h
      · exact h
    · intro a ha
      have : t.alpha = s.alpha := hal2'
      rw [this]; exact hs.alpha a ha
    · intro a m hm
      have hc := (hs.none a m hm).1
      rw [← hcr2] at hc
      refine ⟨?_, ?_⟩
      · simp only [ht, helmFill, hc, Option.map_none]; split <;> rfl
      · have : t.alpha = s.alpha := hal2'
        rw [this]; exact (hs.none a m hm).2
  · exact hh2
  · exact hal2'
  · intro a ha
    obtain ⟨f, hf⟩ := Option.isSome_iff_exists.1 (hs.sigma a ha)
    simp [hf]
  · intro a ha m hm d hd
    obtain ⟨f, hf⟩ := Option.isSome_iff_exists.1 (hall a ha m hm d ((hact2 d).2 hd))
    have e := hfill a ha m hm d hd
    rw [hf] at e
    simp [e]
  · intro a ha hh
    have h1 := hfill a ha 0 (hg.mg a ha) 1 (Or.inr hh)
    have h0 := hfill a ha 0 (hg.mg a ha) 0 (Or.inl rfl)
    have hal := hall a ha 0 (hg.mg a ha) 1 (Or.inr (by rw [hh2, hh]))
    have : t2.sigmaAt a 0 1 = t2.sigmaAt a 0 0 := by
      simp only [HelmStore.sigmaAt, and_self, if_true] at hal ⊢
      split
      · simp
      · next hk => simp [hk] at hal
    simp only [h1, h0, this]
  · intro a ha i j hij hcov
    have h0 := hfill a ha 0 (hg.mg a ha) 0 (Or.inl rfl)
    rw [sigmaAt_zero, sigmaAt_zero] at h0
    simp only [sigmaAt_zero, h0]
    by_cases hla : a + 1 < g.namr
    · obtain ⟨f, c, _, k2, k3⟩ := ham a hla
      have hnc : g.cells (a + 1) 0 (g.ratio a * i) (g.ratio a * j) = false := by
        by_contra hk
        exact hcov ⟨hla, by simpa using hk⟩
      rw [k2, k3]
      simp only [Option.map_some, Option.getD_some]
      rw [fillCoeff_valid hg ha (hg.mg a ha) _ hij]
      simp [amrAverage, hnc]
    · have : a = g.namr - 1 := by omega
      obtain ⟨f, hf⟩ := Option.isSome_iff_exists.1 (hs.sigma a ha)
      have htop3 : t2.sigma a 0 0 = some f := by rw [this] at hf ⊢; rw [htop2, hf]
      rw [htop3, hf]
      simp only [Option.map_some, Option.getD_some]
      exact fillCoeff_valid hg ha (hg.mg a ha) _ hij
  · intro a ha i j hij hcov
    obtain ⟨hla, hcell⟩ := hcov
    have h0 := hfill a ha 0 (hg.mg a ha) 0 (Or.inl rfl)
    have h1 := hfill (a + 1) hla 0 (hg.mg _ hla) 0 (Or.inl rfl)
    rw [sigmaAt_zero, sigmaAt_zero] at h0 h1
    simp only [sigmaAt_zero, h0, h1]
    obtain ⟨f, c, k1, _, k3⟩ := ham a hla
    rw [k1, k3]
    simp only [Option.map_some, Option.getD_some]
    rw [fillCoeff_valid hg ha (hg.mg a ha) _ hij]
    simp only [amrAverage, hij, hcell, Bool.and_self, if_true]
    congr 1
    refine sum_congr rfl fun p hp => sum_congr rfl fun q hq => ?_
    rw [fillCoeff_valid hg hla (hg.mg _ hla)]
    exact hg.whole a hla i j hcell p q (mem_range.1 hp) (mem_range.1 hq)
  · intro a ha m hm d hd i j hij
    have h0 := hfill a ha m (by omega) d hd
    have h1 := hfill a ha (m + 1) hm d hd
    obtain ⟨f, c, k1, k2⟩ := hmg a ha m (by omega) d ((hact2 d).2 hd)
    rw [sigmaAt_pos _ _ (m + 1) _ (by omega), sigmaAt_pos _ _ (m + 1) _ (by omega), k2] at h1
    rw [k1] at h0
    simp only [h0]
    rw [sigmaAt_pos _ _ (m + 1) _ (by omega), h1]
    simp only [Option.map_some, Option.getD_some]
    rw [fillCoeff_valid hg ha hm _ hij]
    simp only [copyValid, hij, if_true]
    have hv : ∀ p q : ℤ, (p = 0 ∨ p = 1) → (q = 0 ∨ q = 1) → fillCoeff g a m f (2 * i + p) (2 * j + q) = f (2 * i + p) (2 * j + q) := fun p q hp hq =>
      fillCoeff_valid hg ha (by omega) _ (hg.nested a m ha hm i j hij p q hp hq)
    have e00 := hv 0 0 (Or.inl rfl) (Or.inl rfl)
    have e01 := hv 0 1 (Or.inl rfl) (Or.inr rfl)
    have e10 := hv 1 0 (Or.inr rfl) (Or.inl rfl)
    have e11 := hv 1 1 (Or.inr rfl) (Or.inr rfl)
    simp only [add_zero] at e00 e01 e10 e11
    unfold avgdownDir
    split
    · simp only [avgdownX, e00, e01, e10, e11]
    · simp only [avgdownY, e00, e01, e10, e11]

theorem define_ok (g : HelmGrids K) : (helmDefine g).Ok g := by
  refine ⟨?_, ?_, ?_, ?_⟩
  · intro a ha; simp [helmDefine, ha]
  · intro a ha; simp [helmDefine, ha]
  · intro a ha; simp [helmDefine, ha]
  · intro a m hm
    have : ¬ m = 0 := by omega
    simp [helmDefine, this]

/-- What a history has established: valid cells hold what was last given, except under finer grids. -/
structure HelmStore.Tracks (g : HelmGrids K) (s : HelmStore K) (sg : ℕ → ℤ → ℤ → K) (cr : ℕ → (ℤ → ℤ → K) × (ℤ → ℤ → K)) (al : ℕ → ℤ → ℤ → K) : Prop where
  ok : s.Ok g
  sigma : ∀ a < g.namr, ∀ f, s.sigma a 0 0 = some f → ∀ i j, g.cells a 0 i j = true → ¬ g.covered a i j → f i j = sg a i j
  cross : ∀ a < g.namr, ∀ f, s.cross a 0 = some f → ∀ i j, g.cells a 0 i j = true → f.1 i j = (cr a).1 i j ∧ f.2 i j = (cr a).2 i j
  alpha : ∀ a < g.namr, ∀ f, s.alpha a 0 = some f → ∀ i j, g.nodes a i j = true → f i j = al a i j

/-- `prepareForSolve` does not change what was given, and which arrays it leaves behind. -/
theorem prepare_cross {g : HelmGrids K} (hg : g.Wf) {s t : HelmStore K} (hs : s.Ok g) (h : helmPrepare g s = some t) (a : ℕ) (ha : a < g.namr) :
    t.cross a 0 = if s.harmonic then s.cross a 0 else (s.cross a 0).map (fillCross g a 0) := by
  have hamr := hg.amr
  obtain ⟨t1, h1, ho1, hal1, _⟩ := avgdownAll_spec hg (g.namr - 1) (by omega) (s := helmAllocate g s) (allocate_allocated hs)
  obtain ⟨t2, h2, ho2, _⟩ := avgdownSame_spec g 0 (g.nmg 0 - 1) (by have := hg.mg 0 hamr; omega) (hal1 0 hamr)
  rw [helmPrepare, h1, Option.bind_some, h2, Option.map_some, Option.some_inj] at h
  have hc : t2.cross = s.cross := by rw [ho2.cross, ho1.cross]; rfl
  have hh : t2.harmonic = s.harmonic := by rw [ho2.harmonic, ho1.harmonic]; rfl
  have := hg.mg a ha
  rw [← h]
  simp only [helmFill, hc, hh, ha, this, true_and, lt_irrefl, or_false]
  cases s.harmonic <;> simp

theorem step_tracks {g : HelmGrids K} (hg : g.Wf) {s : HelmStore K} {sg : ℕ → ℤ → ℤ → K} {cr : ℕ → (ℤ → ℤ → K) × (ℤ → ℤ → K)} {al : ℕ → ℤ → ℤ → K}
    (hs : s.Tracks g sg cr al) (o : HelmOp K) (ho : o.InRange g) :
    ∃ t, o.step g s = some t ∧ t.Tracks g
      (fun a => o.takeSigma a (sg a))
      (fun a => o.takeCross a (cr a))
      (fun a => o.takeAlpha a (al a)) := by
  obtain ⟨hok, h1, h2, h3⟩ := hs
  cases o with
  | sigma b f =>
    obtain ⟨old, hold⟩ := Option.isSome_iff_exists.1 (hok.sigma b ho)
    refine ⟨s.setSig b 0 0 (copyValid (g.cells b 0) old f), by simp [HelmOp.step, setSigma, hold], ⟨?_, hok.cross, hok.alpha, hok.none⟩, ?_, h2, h3⟩
    · intro a ha
      simp only [HelmStore.setSig]
      split
      · rfl
      · exact hok.sigma a ha
    · intro a ha e he i j hij hc
      by_cases hab : b = a
      · subst hab
        simp only [HelmStore.setSig, and_self, if_true, Option.some_inj] at he
        simp [← he, copyValid, hij, HelmOp.takeSigma, HelmOp.takeCross, HelmOp.takeAlpha]
      · have : ¬ a = b := fun k => hab k.symm
        simp only [HelmStore.setSig, this, false_and, if_false] at he
        simp only [HelmOp.takeSigma, HelmOp.takeCross, HelmOp.takeAlpha, hab, if_false]
        exact h1 a ha e he i j hij hc
  | cross b f =>
    obtain ⟨old, hold⟩ := Option.isSome_iff_exists.1 (hok.cross b ho)
    refine ⟨{ s with cross := fun a' m' => if a' = b ∧ m' = 0 then some (copyValid (g.cells b 0) old.1 f.1, copyValid (g.cells b 0) old.2 f.2) else s.cross a' m' }, by simp only [HelmOp.step, setSigmaCross, hold, Option.map_some], ⟨hok.sigma, ?_, hok.alpha, ?_⟩, h1, ?_, h3⟩
    · intro a ha
      by_cases hab : a = b
      · simp [hab]
      · simpa [hab] using hok.cross a ha
    · intro a m hm
      have : ¬ m = 0 := by omega
      simpa [this] using hok.none a m hm
    · intro a ha e he i j hij
      by_cases hab : b = a
      · subst hab
        simp only [and_self, if_true, Option.some_inj] at he
        simp [← he, copyValid, hij, HelmOp.takeSigma, HelmOp.takeCross, HelmOp.takeAlpha]
      · have : ¬ a = b := fun k => hab k.symm
        simp only [this, false_and, if_false] at he
        simp only [HelmOp.takeSigma, HelmOp.takeCross, HelmOp.takeAlpha, hab, if_false]
        exact h2 a ha e he i j hij
  | alpha b f =>
    obtain ⟨old, hold⟩ := Option.isSome_iff_exists.1 (hok.alpha b ho)
    refine ⟨{ s with alpha := fun a' m' => if a' = b ∧ m' = 0 then some (copyValid (g.nodes b) old f) else s.alpha a' m' }, by simp only [HelmOp.step, setAlpha, hold, Option.map_some], ⟨hok.sigma, hok.cross, ?_, ?_⟩, h1, h2, ?_⟩
    · intro a ha
      by_cases hab : a = b
      · simp [hab]
      · simpa [hab] using hok.alpha a ha
    · intro a m hm
      have : ¬ m = 0 := by omega
      simpa [this] using hok.none a m hm
    · intro a ha e he i j hij
      by_cases hab : b = a
      · subst hab
        simp only [and_self, if_true, Option.some_inj] at he
        simp [← he, copyValid, hij, HelmOp.takeSigma, HelmOp.takeCross, HelmOp.takeAlpha]
      · have : ¬ a = b := fun k => hab k.symm
        simp only [this, false_and, if_false] at he
        simp only [HelmOp.takeSigma, HelmOp.takeCross, HelmOp.takeAlpha, hab, if_false]
        exact h3 a ha e he i j hij
  | harmonic b => exact ⟨_, rfl, ⟨hok.sigma, hok.cross, hok.alpha, hok.none⟩, h1, h2, h3⟩
  | prepare =>
    obtain ⟨t, ht, htok, hth, hta, G, S, hG, hS, _, hSu, _, _⟩ := helm_prepare_consistent hg hok
    refine ⟨t, ht, htok, ?_, ?_, ?_⟩
    · intro a ha f hf i j hij hc
      have e := hS a ha 0 (hg.mg a ha) 0 (Or.inl rfl)
      rw [sigmaAt_zero, hf, Option.some_inj] at e
      rw [e, hSu a ha i j hij hc]
      exact h1 a ha (G a) (hG a ha) i j hij hc
    · intro a ha f hf i j hij
      rw [prepare_cross hg hok ht a ha] at hf
      obtain ⟨c, hc⟩ := Option.isSome_iff_exists.1 (hok.cross a ha)
      have := h2 a ha c hc i j hij
      rw [hc] at hf
      by_cases hh : s.harmonic
      · have hf' : c = f := by simpa [hh] using hf
        rw [← hf']; exact this
      · have hf : fillCross g a 0 c = f := by simpa [hh] using hf
        rw [← hf, fillCross]
        simp only [fillCoeff_valid hg ha (hg.mg a ha) _ hij, hg.exchange a 0 ha (hg.mg a ha) _ i j hij]
        exact this
    · intro a ha f hf
      rw [hta] at hf
      exact h3 a ha f hf

theorem run_tracks {g : HelmGrids K} (hg : g.Wf) (ops : List (HelmOp K)) (hops : ∀ o ∈ ops, o.InRange g) {s : HelmStore K}
    {sg : ℕ → ℤ → ℤ → K} {cr : ℕ → (ℤ → ℤ → K) × (ℤ → ℤ → K)} {al : ℕ → ℤ → ℤ → K} (hs : s.Tracks g sg cr al) :
    ∃ t, helmRun g ops s = some t ∧ t.Tracks g
      (fun a => ops.foldl (HelmOp.takeSigma a) (sg a))
      (fun a => ops.foldl (HelmOp.takeCross a) (cr a))
      (fun a => ops.foldl (HelmOp.takeAlpha a) (al a)) := by
  induction ops generalizing s sg cr al with
  | nil => exact ⟨s, rfl, hs⟩
  | cons o os ih =>
    obtain ⟨t, ht, htt⟩ := step_tracks hg hs o (hops o (by simp))
    obtain ⟨u, hu, hut⟩ := ih (fun o ho => hops o (by simp [ho])) htt
    exact ⟨u, by rw [helmRun, ht]; exact hu, hut⟩

/-- **C189.** Every history of calls on existing levels succeeds. Afterwards the valid cells and nodes of every refinement level hold the cross coefficients and the diagonal which were given last, and the cells which are not under finer grids hold the coefficient which was given last. -/
theorem helm_history {g : HelmGrids K} (hg : g.Wf) (ops : List (HelmOp K)) (hops : ∀ o ∈ ops, o.InRange g) :
    ∃ s, helmRun g ops (helmDefine g) = some s ∧ ∀ a < g.namr, ∃ sig cr al, s.sigma a 0 0 = some sig ∧ s.cross a 0 = some cr ∧ s.alpha a 0 = some al ∧
      (∀ i j, g.cells a 0 i j = true → ¬ g.covered a i j → sig i j = lastSigma ops a i j) ∧
      (∀ i j, g.cells a 0 i j = true → cr.1 i j = (lastCross ops a).1 i j ∧ cr.2 i j = (lastCross ops a).2 i j) ∧
      (∀ i j, g.nodes a i j = true → al i j = lastAlpha ops a i j) := by
  have h0 : (helmDefine g).Tracks g (fun _ _ _ => 0) (fun _ => (fun _ _ => 0, fun _ _ => 0)) (fun _ _ _ => 0) := by
    refine ⟨define_ok g, ?_, ?_, ?_⟩
    · intro a ha f hf i j _ _
      simp only [helmDefine, ha, and_self, if_true, Option.some_inj] at hf
      rw [← hf]
    · intro a ha f hf i j _
      simp only [helmDefine, ha, and_self, if_true, Option.some_inj] at hf
      rw [← hf]; exact ⟨rfl, rfl⟩
    · intro a ha f hf i j _
      simp only [helmDefine, ha, and_self, if_true, Option.some_inj] at hf
      rw [← hf]
  obtain ⟨s, hs, hok, h1, h2, h3⟩ := run_tracks hg ops hops h0
  refine ⟨s, hs, fun a ha => ?_⟩
  obtain ⟨sig, e1⟩ := Option.isSome_iff_exists.1 (hok.sigma a ha)
  obtain ⟨cr, e2⟩ := Option.isSome_iff_exists.1 (hok.cross a ha)
  obtain ⟨al, e3⟩ := Option.isSome_iff_exists.1 (hok.alpha a ha)
  exact ⟨sig, cr, al, e1, e2, e3, h1 a ha sig e1, h2 a ha cr e2, h3 a ha al e3⟩

theorem run_ok {g : HelmGrids K} (hg : g.Wf) (ops : List (HelmOp K)) (hops : ∀ o ∈ ops, o.InRange g) {s : HelmStore K} (hs : s.Ok g) :
    ∃ t, helmRun g ops s = some t ∧ t.Ok g := by
  induction ops generalizing s with
  | nil => exact ⟨s, rfl, hs⟩
  | cons o os ih =>
    obtain ⟨t, ht, htt⟩ : ∃ t, o.step g s = some t ∧ t.Ok g := by
      have hs' : s.Tracks g (fun a => (s.sigma a 0 0).getD fun _ _ => 0) (fun a => (s.cross a 0).getD (fun _ _ => 0, fun _ _ => 0)) (fun a => (s.alpha a 0).getD fun _ _ => 0) :=
        ⟨hs, fun a _ f hf i j _ _ => by simp [hf], fun a _ f hf i j _ => by simp [hf], fun a _ f hf i j _ => by simp [hf]⟩
      obtain ⟨t, ht, htt⟩ := step_tracks hg hs' o (hops o (by simp))
      exact ⟨t, ht, htt.ok⟩
    obtain ⟨u, hu, hut⟩ := ih (fun o ho => hops o (by simp [ho])) htt
    exact ⟨u, by rw [helmRun, ht]; exact hu, hut⟩

/-- **C189 (fails for the code).** Without harmonic averages the operator cannot be applied on a coarser multigrid level after any history: its cross coefficients and its diagonal have never been allocated. -/
theorem helm_coarse_null {g : HelmGrids K} (hg : g.Wf) (ops : List (HelmOp K)) (hops : ∀ o ∈ ops, o.InRange g) :
    ∃ s, helmRun g ops (helmDefine g) = some s ∧ (s.harmonic = false → ∀ a m, 0 < m → helmFapply g s a m = none) := by
  obtain ⟨s, hs, hok⟩ := run_ok hg ops hops (define_ok g)
  refine ⟨s, hs, fun hh a m hm => ?_⟩
  have hc := (hok.none a m hm).1
  rw [helmFapply]
  simp only [hh, Bool.false_eq_true, false_and, if_false, hc]
  cases s.sigma a m 0 <;> rfl

/-- **C189.** After `prepareForSolve` without harmonic averages the operator of the finest multigrid level is the operator with the prepared coefficient, the given cross coefficients with filled ghost cells and the given diagonal. -/
theorem helm_finest_operator {g : HelmGrids K} (hg : g.Wf) {s t : HelmStore K} (hs : s.Ok g) (h : helmPrepare g s = some t) (hh : s.harmonic = false)
    (a : ℕ) (ha : a < g.namr) :
    ∃ sig cr al, t.sigma a 0 0 = some sig ∧ s.cross a 0 = some cr ∧ s.alpha a 0 = some al ∧
      helmFapply g t a 0 = some (helmApply ⟨sig, (fillCross g a 0 cr).1, (fillCross g a 0 cr).2, al, g.dxinv a 0, g.dyinv a 0⟩) := by
  obtain ⟨t', ht', htok, hth, hta, _⟩ := helm_prepare_consistent hg hs
  rw [h, Option.some_inj] at ht'
  subst ht'
  obtain ⟨sig, e1⟩ := Option.isSome_iff_exists.1 (htok.sigma a ha)
  obtain ⟨cr, e2⟩ := Option.isSome_iff_exists.1 (hs.cross a ha)
  obtain ⟨al, e3⟩ := Option.isSome_iff_exists.1 (hs.alpha a ha)
  have e4 := prepare_cross hg hs h a ha
  simp only [hh, Bool.false_eq_true, if_false, e2, Option.map_some] at e4
  refine ⟨sig, cr, al, e1, e2, e3, ?_⟩
  rw [helmFapply]
  simp [e1, e4, hta, e3]

/-- Drop the cross coefficients and the diagonal. -/
def HelmStore.forget (s : HelmStore K) : HelmStore K := { s with cross := fun _ _ => none, alpha := fun _ _ => none }

theorem avgdownOne_forget (g : HelmGrids K) (a m : ℕ) (d : Fin 2) (s : HelmStore K) : avgdownOne g a m d s.forget = (avgdownOne g a m d s).map HelmStore.forget := by
  have h1 : s.forget.sigmaAt a (m - 1) d = s.sigmaAt a (m - 1) d := rfl
  have h2 : s.forget.sigma a m d = s.sigma a m d := rfl
  simp only [avgdownOne, h1, h2]
  cases s.sigmaAt a (m - 1) d with
  | none => rfl
  | some f => cases s.sigma a m d <;> rfl

theorem avgdownLevel_forget (g : HelmGrids K) (a m : ℕ) (s : HelmStore K) : avgdownLevel g a m s.forget = (avgdownLevel g a m s).map HelmStore.forget := by
  simp only [avgdownLevel, avgdownOne_forget]
  cases avgdownOne g a m 0 s with
  | none => rfl
  | some u =>
    have : u.forget.harmonic = u.harmonic := rfl
    simp only [Option.map_some, Option.bind_eq_bind, Option.bind_some, this]
    split
    · exact avgdownOne_forget g a m 1 u
    · rfl

theorem avgdownSame_forget (g : HelmGrids K) (a n : ℕ) (s : HelmStore K) : avgdownSame g a n s.forget = (avgdownSame g a n s).map HelmStore.forget := by
  induction n with
  | zero => rfl
  | succ n ih =>
    simp only [avgdownSame, ih]
    cases avgdownSame g a n s with
    | none => rfl
    | some u => exact avgdownLevel_forget g a (n + 1) u

theorem avgdownAll_forget (g : HelmGrids K) (n : ℕ) (s : HelmStore K) : avgdownAll g n s.forget = (avgdownAll g n s).map HelmStore.forget := by
  induction n generalizing s with
  | zero => rfl
  | succ n ih =>
    simp only [avgdownAll, avgdownSame_forget]
    cases avgdownSame g (n + 1) (g.nmg (n + 1) - 1) s with
    | none => rfl
    | some u =>
      simp only [Option.map_some, Option.bind_some]
      have : avgdownAmr g (n + 1) u.forget = (avgdownAmr g (n + 1) u).map HelmStore.forget := by
        have h1 : u.forget.sigma (n + 1) 0 0 = u.sigma (n + 1) 0 0 := rfl
        have h2 : u.forget.sigma (n + 1 - 1) 0 0 = u.sigma (n + 1 - 1) 0 0 := rfl
        simp only [avgdownAmr, h1, h2]
        cases u.sigma (n + 1) 0 0 with
        | none => rfl
        | some f => cases u.sigma (n + 1 - 1) 0 0 <;> rfl
      rw [this]
      cases avgdownAmr g (n + 1) u with
      | none => rfl
      | some v => exact ih v

theorem prepare_forget (g : HelmGrids K) (s : HelmStore K) : helmPrepare g s.forget = (helmPrepare g s).map HelmStore.forget := by
  have h0 : helmAllocate g s.forget = (helmAllocate g s).forget := rfl
  have hf : ∀ u : HelmStore K, helmFill g u.forget = (helmFill g u).forget := fun u => by
    simp only [helmFill, HelmStore.forget]
    congr 1
    funext a m
    exact (apply_ite (fun o : Option ((ℤ → ℤ → K) × (ℤ → ℤ → K)) => o = none) _ _ _).mpr (by simp)
  simp only [helmPrepare, h0, avgdownAll_forget]
  cases avgdownAll g (g.namr - 1) (helmAllocate g s) with
  | none => rfl
  | some u =>
    simp only [Option.map_some, Option.bind_some, avgdownSame_forget]
    cases avgdownSame g 0 (g.nmg 0 - 1) u with
    | none => rfl
    | some v => simp [hf]

theorem run_plain {g : HelmGrids K} (hg : g.Wf) (ops : List (HelmOp K)) (hops : ∀ o ∈ ops, o.InRange g) {s : HelmStore K} (hs : s.Ok g) :
    (helmRun g ops s).map HelmStore.forget = helmRun g (ops.filter HelmOp.plain) s.forget := by
  induction ops generalizing s with
  | nil => rfl
  | cons o os ih =>
    have hos : ∀ o ∈ os, o.InRange g := fun o ho => hops o (by simp [ho])
    obtain ⟨t, ht, htok⟩ : ∃ t, o.step g s = some t ∧ t.Ok g := by
      obtain ⟨t, ht, htt⟩ := run_ok hg [o] (by intro o' ho'; rw [List.mem_singleton] at ho'; subst ho'; exact hops _ (by simp)) hs
      refine ⟨t, ?_, htt⟩
      rw [helmRun] at ht
      cases ho : o.step g s with
      | none => rw [ho] at ht; exact absurd ht (by simp)
      | some u => rw [ho] at ht; simpa [helmRun] using ht
    rw [helmRun, ht, Option.bind_some, ih hos htok]
    have hplain : o.plain = true → o.step g s.forget = some t.forget := by
      intro hp
      cases o with
      | sigma b f =>
        simp only [HelmOp.step, setSigma] at ht ⊢
        have : s.forget.sigma b 0 0 = s.sigma b 0 0 := rfl
        rw [this]
        cases hk : s.sigma b 0 0 with
        | none => rw [hk] at ht; exact absurd ht (by simp)
        | some old =>
          rw [hk, Option.map_some, Option.some_inj] at ht
          rw [← ht]; rfl
      | cross b f => exact absurd hp (by simp [HelmOp.plain])
      | alpha b f => exact absurd hp (by simp [HelmOp.plain])
      | harmonic b =>
        simp only [HelmOp.step, Option.some_inj] at ht ⊢
        rw [← ht]; rfl
      | prepare =>
        simp only [HelmOp.step] at ht ⊢
        rw [prepare_forget, ht]; rfl
    by_cases hp : o.plain = true
    · rw [List.filter_cons_of_pos hp, helmRun, hplain hp]; rfl
    · rw [List.filter_cons_of_neg hp]
      have : t.forget = s.forget := by
        cases o with
        | cross b f =>
          simp only [HelmOp.step, setSigmaCross, Option.map_eq_some_iff] at ht
          obtain ⟨_, _, e⟩ := ht
          rw [← e]; rfl
        | alpha b f =>
          simp only [HelmOp.step, setAlpha, Option.map_eq_some_iff] at ht
          obtain ⟨_, _, e⟩ := ht
          rw [← e]; rfl
        | sigma b f => exact absurd rfl hp
        | harmonic b => exact absurd rfl hp
        | prepare => exact absurd rfl hp
      rw [this]

/-- **C189.** After `prepareForSolve` with harmonic averages the operator of a coarser multigrid level works with the averaged coefficient of the first direction in the first direction and with that of the second direction in the second. -/
theorem helm_coarse_operator {g : HelmGrids K} (hg : g.Wf) {s t : HelmStore K} (hs : s.Ok g) (h : helmPrepare g s = some t) (hh : s.harmonic = true)
    (a m : ℕ) (ha : a < g.namr) (hm0 : 0 < m) (hm : m < g.nmg a) :
    ∃ sx sy, t.sigmaAt a m 0 = some sx ∧ t.sigmaAt a m 1 = some sy ∧ helmFapply g t a m = some (helmApplyHa sx sy (g.dxinv a m) (g.dyinv a m)) := by
  obtain ⟨t', e, -, hth, -, G, S, -, h2, -⟩ := helm_prepare_consistent hg hs
  rw [h] at e
  cases e
  have a0 : s.active 0 := by simp [HelmStore.active, hh]
  have a1 : s.active 1 := by simp [HelmStore.active, hh]
  refine ⟨_, _, h2 a ha m hm 0 a0, h2 a ha m hm 1 a1, ?_⟩
  rw [helmFapply, if_pos ⟨hth.trans hh, hm0⟩, h2 a ha m hm 0 a0, h2 a ha m hm 1 a1]
  rfl

/-- **C189 (fails for the code).** With harmonic averages the operators of the coarser multigrid levels know neither cross coefficients nor a diagonal: after two histories which differ only in these they are the same. -/
theorem helm_coarse_ignores {g : HelmGrids K} (hg : g.Wf) (ops ops' : List (HelmOp K)) (hops : ∀ o ∈ ops, o.InRange g) (hops' : ∀ o ∈ ops', o.InRange g)
    (hsame : ops.filter HelmOp.plain = ops'.filter HelmOp.plain) {s s' : HelmStore K} (hs : helmRun g ops (helmDefine g) = some s) (hs' : helmRun g ops' (helmDefine g) = some s')
    (hh : s.harmonic = true) (a m : ℕ) (hm : 0 < m) : s'.harmonic = true ∧ helmFapply g s a m = helmFapply g s' a m := by
  have h1 := run_plain hg ops hops (define_ok g)
  have h2 := run_plain hg ops' hops' (define_ok g)
  rw [hsame, ← h2, hs, hs', Option.map_some, Option.map_some, Option.some_inj] at h1
  have e1 : s.sigma = s'.sigma := by have := congrArg HelmStore.sigma h1; exact this
  have e2 : s.aliased = s'.aliased := by have := congrArg HelmStore.aliased h1; exact this
  have e3 : s.harmonic = s'.harmonic := by have := congrArg HelmStore.harmonic h1; exact this
  refine ⟨by rw [← e3, hh], ?_⟩
  simp only [helmFapply, hh, ← e3, hm, and_self, if_true, HelmStore.sigmaAt, e1, e2]

/-- **C189 (fails for the code).** With harmonic averages `prepareForSolve` does not fill the ghost cells of the cross coefficients. -/
theorem helm_cross_ghosts {g : HelmGrids K} (hg : g.Wf) {s t : HelmStore K} (hs : s.Ok g) (h : helmPrepare g s = some t) (hh : s.harmonic = true)
    (a : ℕ) (ha : a < g.namr) : t.cross a 0 = s.cross a 0 := by
  rw [prepare_cross hg hs h a ha]; simp [hh]

end Field

section Ordered
variable [Field K] [LinearOrder K] [IsStrictOrderedRing K]

theorem harmonic_pair_range {lo hi x y u v : K} (hlo : 0 < lo) (hx : lo ≤ x ∧ x ≤ hi) (hy : lo ≤ y ∧ y ≤ hi) (hu : lo ≤ u ∧ u ≤ hi) (hv : lo ≤ v ∧ v ≤ hi) :
    lo ≤ (x + y) * (u + v) / (x + y + (u + v)) ∧ (x + y) * (u + v) / (x + y + (u + v)) ≤ hi := by
  have hpos : 0 < x + y + (u + v) := by linarith [hx.1, hy.1, hu.1, hv.1]
  constructor
  · rw [le_div_iff₀ hpos]
    nlinarith [mul_nonneg (show 0 ≤ x + y - 2 * lo by linarith [hx.1, hy.1]) (show 0 ≤ u + v - 2 * lo by linarith [hu.1, hv.1]), hx.1, hy.1, hu.1, hv.1]
  · rw [div_le_iff₀ hpos]
    nlinarith [mul_nonneg (show 0 ≤ x + y by linarith [hx.1, hy.1]) (show 0 ≤ 2 * hi - (u + v) by linarith [hu.2, hv.2]), mul_nonneg (show 0 ≤ u + v by linarith [hu.1, hv.1]) (show 0 ≤ 2 * hi - (x + y) by linarith [hx.2, hy.2])]

/-- **C189.** If the given coefficients lie between two positive bounds, then after `prepareForSolve` the coefficients of all levels do. -/
theorem helm_sigma_range {g : HelmGrids K} (hg : g.Wf) {s t : HelmStore K} (hs : s.Ok g) (h : helmPrepare g s = some t) {lo hi : K} (hlo : 0 < lo)
    (hb : ∀ a < g.namr, ∀ f, s.sigma a 0 0 = some f → ∀ i j, g.cells a 0 i j = true → lo ≤ f i j ∧ f i j ≤ hi)
    (a m : ℕ) (d : Fin 2) (ha : a < g.namr) (hm : m < g.nmg a) (hd : s.active d) :
    ∃ f, t.sigmaAt a m d = some f ∧ ∀ i j, g.cells a m i j = true → lo ≤ f i j ∧ f i j ≤ hi := by
  obtain ⟨t', ht', _, _, _, G, S, hG, hS, hSd, hSu, hSc, hSm⟩ := helm_prepare_consistent hg hs
  rw [h, Option.some_inj] at ht'
  subst ht'
  have h0 : ∀ n a, a + n + 1 = g.namr → ∀ i j, g.cells a 0 i j = true → lo ≤ S a 0 0 i j ∧ S a 0 0 i j ≤ hi := by
    intro n
    induction n with
    | zero =>
      intro a ha i j hij
      rw [hSu a (by omega) i j hij (by intro hc; have := hc.1; omega)]
      exact hb a (by omega) (G a) (hG a (by omega)) i j hij
    | succ n ih =>
      intro a ha i j hij
      by_cases hc : g.covered a i j
      · rw [hSc a (by omega) i j hij hc]
        have hr : 0 < g.ratio a := hg.ratio a (by omega)
        have hr' : (0 : K) < (g.ratio a : K) * g.ratio a := by positivity
        have hv : ∀ p ∈ range (g.ratio a), ∀ q ∈ range (g.ratio a), lo ≤ S (a + 1) 0 0 (g.ratio a * i + p) (g.ratio a * j + q) ∧ S (a + 1) 0 0 (g.ratio a * i + p) (g.ratio a * j + q) ≤ hi := fun p hp q hq =>
          ih (a + 1) (by omega) _ _ (hg.whole a (by omega) i j hc.2 p q (mem_range.1 hp) (mem_range.1 hq))
        have hconst : ∀ x : K, (∑ _p ∈ range (g.ratio a), ∑ _q ∈ range (g.ratio a), x) = x * ((g.ratio a : K) * g.ratio a) := fun x => by
          simp [sum_const, card_range, nsmul_eq_mul]; ring
        constructor
        · rw [le_div_iff₀ hr', ← hconst lo]
          exact sum_le_sum fun p hp => sum_le_sum fun q hq => (hv p hp q hq).1
        · rw [div_le_iff₀ hr', ← hconst hi]
          exact sum_le_sum fun p hp => sum_le_sum fun q hq => (hv p hp q hq).2
      · rw [hSu a (by omega) i j hij hc]
        exact hb a (by omega) (G a) (hG a (by omega)) i j hij
  refine ⟨S a m d, hS a ha m hm d hd, ?_⟩
  induction m with
  | zero =>
    intro i j hij
    have hd0 : S a 0 d = S a 0 0 := by
      match d with
      | 0 => rfl
      | 1 =>
        rcases hd with hd | hd
        · exact absurd hd (by decide)
        · exact hSd a ha hd
    rw [hd0]
    exact h0 (g.namr - a - 1) a (by omega) i j hij
  | succ m ih =>
    intro i j hij
    have hv := fun p q hp hq => ih (by omega) _ _ (hg.nested a m ha hm i j hij p q hp hq)
    have e00 := hv 0 0 (Or.inl rfl) (Or.inl rfl)
    have e01 := hv 0 1 (Or.inl rfl) (Or.inr rfl)
    have e10 := hv 1 0 (Or.inr rfl) (Or.inl rfl)
    have e11 := hv 1 1 (Or.inr rfl) (Or.inr rfl)
    simp only [add_zero] at e00 e01 e10 e11
    rw [hSm a ha m hm d hd i j hij]
    unfold avgdownDir
    split
    · exact harmonic_pair_range hlo e00 e01 e10 e11
    · exact harmonic_pair_range hlo e00 e10 e01 e11

end Ordered

/-! ### Concrete cases -/

/-- Two refinement levels with ratio 2, two multigrid levels each; level 1 covers a quarter of level 0. The periodic exchange is the one of the level-0 domain. -/
def sampleGrids (n : ℕ) : HelmGrids ℚ where
  namr := n
  nmg := fun _ => 2
  cells := fun _ m i j => decide (0 ≤ i ∧ i < 4 / 2 ^ m ∧ 0 ≤ j ∧ j < 4 / 2 ^ m)
  nodes := fun _ i j => decide (0 ≤ i ∧ i ≤ 4 ∧ 0 ≤ j ∧ j ≤ 4)
  ratio := fun _ => 2
  exchange := fun _ m f i j => f (i % (4 / 2 ^ m)) (j % (4 / 2 ^ m))
  mirror := fun _ _ f => f
  dxinv := fun _ _ => 1
  dyinv := fun _ _ => 1

theorem sampleGrids_wf (n : ℕ) (hn : 0 < n) : (sampleGrids n).Wf := by
  refine ⟨hn, fun _ _ => by simp [sampleGrids], ?_, fun _ _ => by simp [sampleGrids], ?_, ?_, fun _ _ _ _ _ _ _ _ => rfl⟩
  · intro a m _ hm i j h p q hp hq
    have hm0 : m = 0 := by simp [sampleGrids] at hm; omega
    subst hm0
    simp only [sampleGrids, decide_eq_true_eq] at h ⊢
    norm_num at h ⊢
    omega
  · intro a _ i j h p q hp hq
    simp only [sampleGrids, decide_eq_true_eq] at h hp hq ⊢
    norm_num at h hp hq ⊢
    omega
  · intro a m _ hm f i j h
    simp only [sampleGrids, decide_eq_true_eq] at h hm ⊢
    rw [Int.emod_eq_of_lt h.1 h.2.1, Int.emod_eq_of_lt h.2.2.1 h.2.2.2]

/-- A history: coefficients for both levels, a diagonal on level 0, then `prepareForSolve`. -/
def sampleHistory (h : Bool) : List (HelmOp ℚ) :=
  [.sigma 0 fun i j => i + 2 * j + 1, .sigma 1 fun i j => i + j + 1, .cross 0 (fun _ _ => 1, fun _ _ => -1), .alpha 0 fun _ _ => -1, .harmonic h, .prepare]

theorem sampleHistory_inRange (h : Bool) : ∀ o ∈ sampleHistory h, o.InRange (sampleGrids 2) := by
  intro o ho
  simp only [sampleHistory, List.mem_cons, List.not_mem_nil, or_false] at ho
  rcases ho with rfl | rfl | rfl | rfl | rfl | rfl <;> simp [HelmOp.InRange, sampleGrids]

example (h : Bool) : ∃ s, helmRun (sampleGrids 2) (sampleHistory h) (helmDefine (sampleGrids 2)) = some s := by
  obtain ⟨s, hs, _⟩ := helm_history (sampleGrids_wf 2 (by norm_num)) (sampleHistory h) (sampleHistory_inRange h)
  exact ⟨s, hs⟩

/-- The covered cell `(1, 0)` of level 0 has the mean of its four fine cells, the open cell `(3, 1)` what it was given. -/
example : ((helmRun (sampleGrids 2) (sampleHistory false) (helmDefine (sampleGrids 2))).bind fun s => (s.sigma 0 0 0).map fun f => (f 1 0, f 3 1)) = some (4, 6) := by
  decide +kernel

/-- The value of the operator at a node, after a history. -/
def applyAfter (g : HelmGrids ℚ) (ops : List (HelmOp ℚ)) (a m : ℕ) (x : ℤ → ℤ → ℚ) (i j : ℤ) : Option ℚ :=
  (helmRun g ops (helmDefine g)).bind fun s => (helmFapply g s a m).map fun F => F (fun _ _ => false) x i j

/-- **C189 (fails for the code).** Asking for harmonic averages, which concern the coarser multigrid levels, changes the operator of the finest one: constant cross coefficients, which do not contribute, contribute at the border of the grid because the ghost cells are zero. -/
theorem helm_harmonic_operator_wrong : ∃ (ops : Bool → List (HelmOp ℚ)) (x : ℤ → ℤ → ℚ),
    (∀ h, ops h = [.sigma 0 fun _ _ => 1, .cross 0 (fun _ _ => 1, fun _ _ => -1), .harmonic h, .prepare]) ∧
    applyAfter (sampleGrids 1) (ops false) 0 0 x 0 0 = some 0 ∧ applyAfter (sampleGrids 1) (ops true) 0 0 x 0 0 ≠ some 0 :=
  ⟨_, fun i _ => i, fun _ => rfl, by decide +kernel, by decide +kernel⟩

end Fub
