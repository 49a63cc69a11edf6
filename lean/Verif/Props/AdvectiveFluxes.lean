import Verif.Spec.AdvectiveFluxes
import Mathlib.Data.Rat.Defs

/-!
# C209: the advective fluxes follow the hierarchy
-/

namespace Fub

variable {n : Nat} {L K : Type}

/-- The invariant behind the theorems. -/
structure AdvInv (c : AdvCtx n L K) : Prop where
  rank_pos : 0 < c.rank
  le_max : c.levels.length ≤ c.maxLevels
  pv_len : c.pv.length = c.maxLevels
  base : ∀ (l : Nat) (ly : L), c.levels[l]? = some ly → (c.data[l]?).join = some (advBase c ly)
  fit : AdvAllFit c

theorem advAllocLevel_fits (c : AdvCtx n L K) (ly : L) (hr : 0 < c.rank) :
    AdvFits c.rank c.scratchGcw c.fluxGcw ly (advAllocLevel K ly (advBase c ly)) := by
  refine ⟨⟨rfl, rfl, rfl, fun i => ?_⟩, fun d => ⟨rfl, rfl, rfl, ?_, fun i hi => ?_⟩⟩
  · simp [advAllocLevel, advAlloc, advBase, hr]
  · simp [advAllocLevel, advAlloc, advBase]
  · simp [advAllocLevel, advAlloc, advBase, hi]

theorem advMap_get {α : Type} (m : Nat) (f : Nat → Option α) (l : Nat) :
    (((List.range m).map f)[l]?).join = if l < m then f l else none := by
  by_cases h : l < m
  · simp [h]
  · simp [h]

/-- What `ResetHierarchyConfiguration(first)` does to a context whose levels below `first` are in order. -/
theorem advReset_spec (first : Nat) (c : AdvCtx n L K) (hr : 0 < c.rank) (hm : c.levels.length ≤ c.maxLevels)
    (hp : c.pv.length = c.maxLevels ∨ c.pv = [])
    (hb : ∀ l ly, l < first → c.levels[l]? = some ly → (c.data[l]?).join = some (advBase c ly))
    (hf : ∀ l ly, l < first → c.levels[l]? = some ly → ∃ p, c.fluxes l = some p ∧ AdvFits c.rank c.scratchGcw c.fluxGcw ly p) :
    ∃ c', advReset first c = some c' ∧ AdvInv c' ∧ c'.levels = c.levels ∧ c'.maxLevels = c.maxLevels ∧ c'.rank = c.rank ∧
      c'.scratchGcw = c.scratchGcw ∧ c'.fluxGcw = c.fluxGcw ∧
      (∀ l, l < first → l < c.levels.length → c'.fluxes l = c.fluxes l) ∧
      (∀ l ly, first ≤ l → c.levels[l]? = some ly → c'.fluxes l = some (advAllocLevel K ly (advBase c ly))) := by
  have key : ∀ e : AdvCtx n L K, e.levels = c.levels → e.maxLevels = c.maxLevels → e.rank = c.rank →
      e.scratchGcw = c.scratchGcw → e.fluxGcw = c.fluxGcw → e.data = c.data → e.pv.length = c.maxLevels →
      (∀ l, l < first → l < c.levels.length → e.fluxes l = c.fluxes l) →
      ∃ c', advAllocLoop first (advBaseReset first e) = some c' ∧ AdvInv c' ∧ c'.levels = c.levels ∧
      c'.maxLevels = c.maxLevels ∧ c'.rank = c.rank ∧ c'.scratchGcw = c.scratchGcw ∧ c'.fluxGcw = c.fluxGcw ∧
      (∀ l, l < first → l < c.levels.length → c'.fluxes l = c.fluxes l) ∧
      (∀ l ly, first ≤ l → c.levels[l]? = some ly → c'.fluxes l = some (advAllocLevel K ly (advBase c ly))) := by
    intro e h1 h2 h3 h4 h5 h6 h7 h8
    have hbase : ∀ ly, advBase e ly = advBase c ly := by
      intro ly; simp [advBase, h3, h4, h5]
    have hdata : ∀ (l : Nat) (ly : L), c.levels[l]? = some ly → ((advBaseReset first e).data[l]?).join = some (advBase c ly) := by
      intro l ly hl
      have hlt : l < c.levels.length := (List.getElem?_eq_some_iff.1 hl).1
      simp only [advBaseReset]
      rw [advMap_get, h1, if_pos hlt]
      by_cases hfl : l < first
      · rw [if_pos hfl, h6]; exact hb l ly hfl hl
      · rw [if_neg hfl, hl]; simp [hbase]
    have hlow : ∀ l, l < first → l < c.levels.length →
        (((List.range e.pv.length).map (advLevelEntry first (advBaseReset first e)))[l]?).join = c.fluxes l := by
      intro l hfl hlt
      rw [advMap_get, h7, if_pos (by omega)]
      simp only [advLevelEntry, if_pos hfl]
      exact h8 l hfl hlt
    have hhigh : ∀ (l : Nat) (ly : L), first ≤ l → c.levels[l]? = some ly →
        (((List.range e.pv.length).map (advLevelEntry first (advBaseReset first e)))[l]?).join =
          some (advAllocLevel K ly (advBase c ly)) := by
      intro l ly hfl hl
      have hlt : l < c.levels.length := (List.getElem?_eq_some_iff.1 hl).1
      rw [advMap_get, h7, if_pos (by omega)]
      have hlev : (advBaseReset first e).levels[l]? = some ly := by simp only [advBaseReset]; rw [h1]; exact hl
      simp only [advLevelEntry, if_neg (by omega : ¬ l < first), hlev, hdata l ly hl]
    have hcond : (advBaseReset first e).levels.length ≤ first ∨
        (advBaseReset first e).levels.length ≤ (advBaseReset first e).pv.length := by
      right; simp only [advBaseReset]; rw [h1, h7]; exact hm
    refine ⟨{ advBaseReset first e with pv := (List.range e.pv.length).map (advLevelEntry first (advBaseReset first e)) },
      by simp only [advAllocLoop]; rw [if_pos hcond]; rfl, ?_, h1, h2, h3, h4, h5, hlow, hhigh⟩
    refine ⟨by simp only [advBaseReset]; rw [h3]; exact hr, by simp only [advBaseReset]; rw [h1, h2]; exact hm,
      by simp [advBaseReset, h7, h2], ?_, ?_⟩
    · intro l ly hl
      have hl' : c.levels[l]? = some ly := by rw [← h1]; exact hl
      have := hdata l ly hl'
      simp only [advBaseReset] at this ⊢
      rw [this]; simp [advBase, h3, h4, h5]
    · intro l ly hl
      have hl' : c.levels[l]? = some ly := by rw [← h1]; exact hl
      have hlt : l < c.levels.length := (List.getElem?_eq_some_iff.1 hl').1
      simp only [advBaseReset]
      rw [h3, h4, h5]
      by_cases hfl : l < first
      · obtain ⟨p, hp1, hp2⟩ := hf l ly hfl hl'
        exact ⟨p, by rw [← hp1]; exact hlow l hfl hlt, hp2⟩
      · exact ⟨_, hhigh l ly (by omega) hl', advAllocLevel_fits c ly hr⟩
  by_cases h0 : c.pv.length = 0
  · have he : advReset first c = advAllocLoop first (advBaseReset first { c with pv := advResize c.maxLevels c.pv }) := by
      simp only [advReset, h0, if_true]
    rw [he]
    refine key _ rfl rfl rfl rfl rfl rfl (by simp [advResize]) ?_
    intro l _ hlt
    simp only [AdvCtx.fluxes, advResize]
    rw [advMap_get, if_pos (by omega)]
  · have he : advReset first c = advAllocLoop first (advBaseReset first c) := by
      simp only [advReset, h0, if_false]
    rw [he]
    refine key c rfl rfl rfl rfl rfl rfl ?_ (fun _ _ _ => rfl)
    rcases hp with h | h
    · exact h
    · simp [h] at h0

theorem advConstruct_inv (levels : List L) (m rank g f : Nat) (hr : 0 < rank) (hm : levels.length ≤ m) :
    ∃ c, advConstruct K n levels m rank g f = some c ∧ AdvInv c ∧ c.levels = levels ∧ c.maxLevels = m ∧ c.rank = rank ∧
      c.scratchGcw = g ∧ c.fluxGcw = f ∧
      (∀ l ly, levels[l]? = some ly → ∃ p, c.fluxes l = some p ∧ p.Unwritten) := by
  obtain ⟨c, h1, h2, h3, h4, h5, h6, h7, _, h9⟩ := advReset_spec (K := K) (n := n) 0
    { levels := levels, maxLevels := m, rank := rank, scratchGcw := g, fluxGcw := f, data := [], pv := [] }
    hr hm (Or.inr rfl) (by intro l _ h; omega) (by intro l _ h; omega)
  exact ⟨c, h1, h2, h3, h4, h5, h6, h7, fun l ly hl => ⟨_, h9 l ly (Nat.zero_le _) hl, fun _ _ => rfl, fun _ _ _ => rfl⟩⟩

/-- A second pass over levels that are in order. -/
theorem advAllocLoop_inv (c : AdvCtx n L K) (h : AdvInv c) :
    ∃ c', advAllocLoop 0 c = some c' ∧ AdvInv c' ∧ c'.levels = c.levels ∧ c'.maxLevels = c.maxLevels ∧ c'.rank = c.rank ∧
      c'.scratchGcw = c.scratchGcw ∧ c'.fluxGcw = c.fluxGcw ∧
      (∀ l ly, c.levels[l]? = some ly → c'.fluxes l = some (advAllocLevel K ly (advBase c ly))) := by
  have hhigh : ∀ (l : Nat) (ly : L), c.levels[l]? = some ly →
      (((List.range c.pv.length).map (advLevelEntry 0 c))[l]?).join = some (advAllocLevel K ly (advBase c ly)) := by
    intro l ly hl
    have hlt : l < c.levels.length := (List.getElem?_eq_some_iff.1 hl).1
    have := h.le_max
    rw [advMap_get, h.pv_len, if_pos (by omega)]
    simp only [advLevelEntry, if_neg (by omega : ¬ l < 0), hl, h.base l ly hl]
  refine ⟨{ c with pv := (List.range c.pv.length).map (advLevelEntry 0 c) }, by
    simp only [advAllocLoop]
    rw [if_pos (Or.inr (by rw [h.pv_len]; exact h.le_max))], ?_, rfl, rfl, rfl, rfl, rfl, hhigh⟩
  exact ⟨h.rank_pos, h.le_max, by simp [h.pv_len], fun l ly hl => h.base l ly hl,
    fun l ly hl => ⟨_, hhigh l ly hl, advAllocLevel_fits c ly h.rank_pos⟩⟩

theorem advCopyLevel_fits (valid : L → Option (Fin (n + 1)) → (Fin (n + 1) → Int) → Bool) (r rank g f : Nat) (ly : L)
    (dst src : AdvFlux n L K) (h : AdvFits rank g f ly dst) : AdvFits rank g f ly (advCopyLevel valid r dst src) := by
  refine ⟨h.1, fun d => ?_⟩
  by_cases hd : d.val < r
  · simp only [advCopyLevel, hd, if_true, advParallelCopy]; exact h.2 d
  · simp only [advCopyLevel, hd, if_false]; exact h.2 d

/-- The copy constructor level by level. -/
theorem advCopy_spec (valid : L → Option (Fin (n + 1)) → (Fin (n + 1) → Int) → Bool) (c : AdvCtx n L K) (h : AdvInv c) :
    ∃ c', advCopy valid c = some c' ∧ AdvInv c' ∧ c'.levels = c.levels ∧ c'.maxLevels = c.maxLevels ∧ c'.rank = c.rank ∧
      c'.scratchGcw = c.scratchGcw ∧ c'.fluxGcw = c.fluxGcw ∧
      ∀ l ly p, c.levels[l]? = some ly → c.fluxes l = some p →
        c'.fluxes l = some (advCopyLevel valid c.rank (advAllocLevel K ly (advBase c ly)) p) := by
  obtain ⟨t, h1, h2, h3, h4, h5, h6, h7, _, h9⟩ := advReset_spec (K := K) 0 { c with data := [], pv := [] } h.rank_pos h.le_max
    (Or.inr rfl) (by intro l _ hl; omega) (by intro l _ hl; omega)
  simp only at h3 h4 h5 h6 h7 h9
  have hent : ∀ l ly p, c.levels[l]? = some ly → c.fluxes l = some p →
      (((List.range t.pv.length).map (advCopyEntry valid t c))[l]?).join = some (advCopyLevel valid c.rank (advAllocLevel K ly (advBase c ly)) p) := by
    intro l ly p hl hp
    have hlt : l < c.levels.length := (List.getElem?_eq_some_iff.1 hl).1
    have hle := h.le_max
    rw [advMap_get, h2.pv_len, h4, if_pos (by omega)]
    have ht : (t.pv[l]?).join = some (advAllocLevel K ly (advBase c ly)) := h9 l ly (Nat.zero_le _) hl
    have hc : (c.pv[l]?).join = some p := hp
    simp only [advCopyEntry, ht, hc, h3, if_pos hlt, h5]
  refine ⟨{ t with pv := (List.range t.pv.length).map (advCopyEntry valid t c) }, by
    simp only [advCopy, h1, Option.bind_eq_bind, Option.bind_some]
    rw [if_pos (by rw [h3, h.pv_len]; exact h.le_max)], ?_, h3, h4, h5, h6, h7, hent⟩
  refine ⟨h2.rank_pos, h2.le_max, by simp [h2.pv_len], fun l ly hl => h2.base l ly hl, ?_⟩
  intro l ly hl
  have hl' : c.levels[l]? = some ly := by rw [← h3]; exact hl
  obtain ⟨p, hp, _⟩ := h.fit l ly hl'
  refine ⟨_, hent l ly p hl' hp, ?_⟩
  simp only [h5, h6, h7]
  exact advCopyLevel_fits valid _ _ _ _ _ _ _ (advAllocLevel_fits c ly h.rank_pos)

theorem advTake_get (ls tail : List L) (first l : Nat) (ly : L) (hfirst : first ≤ ls.length) (hl : l < first)
    (hget : (ls.take first ++ tail)[l]? = some ly) : ls[l]? = some ly := by
  rw [List.getElem?_append_left (by simp; omega), List.getElem?_take_of_lt hl] at hget
  exact hget

/-- One operation keeps the invariant and is defined. -/
theorem advStep_inv (valid : L → Option (Fin (n + 1)) → (Fin (n + 1) → Int) → Bool) (c : AdvCtx n L K) (h : AdvInv c)
    (op : AdvOp n L K) (ops : List (AdvOp n L K)) (hok : AdvOk c.levels c.maxLevels (op :: ops)) :
    ∃ c', advStep valid c op = some c' ∧ AdvInv c' ∧ c'.rank = c.rank ∧ c'.scratchGcw = c.scratchGcw ∧
      c'.fluxGcw = c.fluxGcw ∧ AdvOk c'.levels c'.maxLevels ops := by
  cases op with
  | regrid first tail =>
    obtain ⟨hfirst, hlen, hrest⟩ := hok
    obtain ⟨c', g1, g2, g3, g4, g5, g6, g7, _, _⟩ := advReset_spec (K := K) first
      { c with levels := c.levels.take first ++ tail } h.rank_pos hlen (Or.inl h.pv_len)
      (fun l ly hl hget => h.base l ly (advTake_get c.levels tail first l ly hfirst hl hget))
      (fun l ly hl hget => h.fit l ly (advTake_get c.levels tail first l ly hfirst hl hget))
    exact ⟨c', g1, g2, g5, g6, g7, by rw [g3, g4]; exact hrest⟩
  | replace ls m =>
    obtain ⟨hlen, hrest⟩ := hok
    obtain ⟨c1, g1, g2, g3, g4, g5, g6, g7, _, _⟩ := advReset_spec (K := K) 0
      { c with pv := advResize m c.pv, levels := ls, maxLevels := m } h.rank_pos hlen
      (Or.inl (by simp [advResize])) (by intro l _ hl; omega) (by intro l _ hl; omega)
    obtain ⟨c2, k1, k2, k3, k4, k5, k6, k7, _⟩ := advAllocLoop_inv c1 g2
    refine ⟨c2, ?_, k2, by rw [k5, g5], by rw [k6, g6], by rw [k7, g7], by rw [k3, g3, k4, g4]; exact hrest⟩
    simp only [advStep, advResetGridding, Option.bind_eq_bind]
    rw [g1]; exact k1
  | write l cells faces =>
    obtain ⟨hlt, hrest⟩ := hok
    have hle := h.le_max
    refine ⟨{ c with pv := c.pv.modify l (Option.map (advSetValues cells faces)) }, by simp only [advStep, advWrite]; rw [if_pos (by rw [h.pv_len]; omega)], ?_, rfl, rfl, rfl, hrest⟩
    refine ⟨h.rank_pos, h.le_max, by simp [h.pv_len], fun l ly hl => h.base l ly hl, ?_⟩
    intro j ly hj
    obtain ⟨p, hp, hfit⟩ := h.fit j ly hj
    simp only [AdvCtx.fluxes] at hp ⊢
    by_cases hjl : l = j
    · subst hjl
      have : c.pv[l]? = some (some p) := by
        cases hq : c.pv[l]? with
        | none => simp [hq] at hp
        | some o => cases o with
          | none => simp [hq] at hp
          | some q => simp [hq] at hp; rw [hp]
      refine ⟨advSetValues cells faces p, by rw [List.getElem?_modify, this]; simp, hfit.1, fun d => hfit.2 d⟩
    · exact ⟨p, by rw [List.getElem?_modify]; simp only [hjl, if_false]; simpa using hp, hfit⟩
  | copy =>
    obtain ⟨c', g1, g2, g3, g4, g5, g6, g7, _⟩ := advCopy_spec valid c h
    exact ⟨c', g1, g2, g5, g6, g7, by rw [g3, g4]; exact hok⟩

/-- A history from a state in order. -/
theorem advRun_inv (valid : L → Option (Fin (n + 1)) → (Fin (n + 1) → Int) → Bool) (ops : List (AdvOp n L K)) :
    ∀ c : AdvCtx n L K, AdvInv c → AdvOk c.levels c.maxLevels ops →
      ∃ c', advRun valid c ops = some c' ∧ AdvInv c' ∧ c'.rank = c.rank ∧ c'.scratchGcw = c.scratchGcw ∧
        c'.fluxGcw = c.fluxGcw := by
  induction ops with
  | nil => intro c h _; exact ⟨c, rfl, h, rfl, rfl, rfl⟩
  | cons op ops ih =>
    intro c h hok
    obtain ⟨c1, g1, g2, g3, g4, g5, g6⟩ := advStep_inv valid c h op ops hok
    obtain ⟨c2, k1, k2, k3, k4, k5⟩ := ih c1 g2 g6
    exact ⟨c2, by simp only [advRun, g1, Option.bind_some]; exact k1, k2, by rw [k3, g3], by rw [k4, g4], by rw [k5, g5]⟩

/-- A context with `levels` is built and the history `ops` happens to it. -/
def AdvReached (valid : L → Option (Fin (n + 1)) → (Fin (n + 1) → Int) → Bool) (levels : List L) (m rank g f : Nat)
    (ops : List (AdvOp n L K)) (c : AdvCtx n L K) : Prop :=
  (advConstruct K n levels m rank g f).bind (fun c0 => advRun valid c0 ops) = some c

theorem advReached_inv (valid : L → Option (Fin (n + 1)) → (Fin (n + 1) → Int) → Bool) (levels : List L) (m rank g f : Nat)
    (ops : List (AdvOp n L K)) (hr : 0 < rank) (hm : levels.length ≤ m) (hok : AdvOk levels m ops) :
    ∃ c, AdvReached valid levels m rank g f ops c ∧ AdvInv c ∧ c.rank = rank ∧ c.scratchGcw = g ∧ c.fluxGcw = f := by
  obtain ⟨c0, h1, h2, h3, h4, h5, h6, h7, _⟩ := advConstruct_inv (K := K) (n := n) levels m rank g f hr hm
  obtain ⟨c, k1, k2, k3, k4, k5⟩ := advRun_inv valid ops c0 h2 (by rw [h3, h4]; exact hok)
  exact ⟨c, by simp only [AdvReached, h1, Option.bind_some]; exact k1, k2, by rw [k3, h5], by rw [k4, h6], by rw [k5, h7]⟩

/-- **C209.** After every history of regrids, replaced griddings, writes and copies nothing undefined has happened and every level the
hierarchy has now owns advective fluxes on its boxes, of the sizes the options ask for. -/
theorem advective_fluxes_fit (valid : L → Option (Fin (n + 1)) → (Fin (n + 1) → Int) → Bool) (levels : List L) (m rank g f : Nat)
    (ops : List (AdvOp n L K)) (hr : 0 < rank) (hm : levels.length ≤ m) (hok : AdvOk levels m ops) :
    ∃ c, AdvReached valid levels m rank g f ops c ∧
      ∀ l ly, c.levels[l]? = some ly → ∃ p, c.fluxes l = some p ∧ AdvFits rank g f ly p := by
  obtain ⟨c, h1, h2, h3, h4, h5⟩ := advReached_inv valid levels m rank g f ops hr hm hok
  exact ⟨c, h1, fun l ly hl => by
    have := h2.fit l ly hl
    rw [h3, h4, h5] at this; exact this⟩

/-- **C209.** A regrid keeps the fluxes of the levels below the first one that changes, with their values, and leaves the fluxes of
all other levels unwritten. -/
theorem advective_fluxes_regrid (valid : L → Option (Fin (n + 1)) → (Fin (n + 1) → Int) → Bool) (levels : List L)
    (m rank g f : Nat) (ops : List (AdvOp n L K)) (hr : 0 < rank) (hm : levels.length ≤ m) (hok : AdvOk levels m ops)
    (c : AdvCtx n L K) (hc : AdvReached valid levels m rank g f ops c) (first : Nat) (tail : List L)
    (hfirst : first ≤ c.levels.length) (hlen : (c.levels.take first ++ tail).length ≤ c.maxLevels) :
    ∃ c', advStep valid c (.regrid first tail) = some c' ∧ c'.levels = c.levels.take first ++ tail ∧
      (∀ l, l < first → c'.fluxes l = c.fluxes l) ∧
      ∀ l, first ≤ l → l < c'.levels.length → ∃ p, c'.fluxes l = some p ∧ p.Unwritten := by
  obtain ⟨c1, h1, h, _⟩ := advReached_inv valid levels m rank g f ops hr hm hok
  have : c1 = c := by
    have h1' : (advConstruct K n levels m rank g f).bind (fun c0 => advRun valid c0 ops) = some c1 := h1
    have hc' : (advConstruct K n levels m rank g f).bind (fun c0 => advRun valid c0 ops) = some c := hc
    rw [h1'] at hc'; exact Option.some.inj hc'
  subst this
  obtain ⟨c', g1, g2, g3, g4, g5, g6, g7, g8, g9⟩ := advReset_spec (K := K) first
      { c1 with levels := c1.levels.take first ++ tail } h.rank_pos hlen (Or.inl h.pv_len)
      (fun l ly hl hget => h.base l ly (advTake_get c1.levels tail first l ly hfirst hl hget))
      (fun l ly hl hget => h.fit l ly (advTake_get c1.levels tail first l ly hfirst hl hget))
  refine ⟨c', g1, g3, ?_, ?_⟩
  · intro l hl
    exact g8 l hl (by simp; omega)
  · intro l hl hlt
    have hget : c'.levels[l]? = some c'.levels[l] := List.getElem?_eq_getElem hlt
    have hget' : (c1.levels.take first ++ tail)[l]? = some c'.levels[l] := (congrArg (fun z : List L => z[l]?) g3).symm.trans hget
    exact ⟨_, g9 l _ hl hget', fun _ _ => rfl, fun _ _ _ => rfl⟩

/-- **C209.** A copy has the same levels and, on every level, fluxes that fit. They hold the values of the original on the cells and
faces of the boxes, for every component and every direction below the rank, and nothing anywhere else. -/
theorem advective_fluxes_copy_partial (valid : L → Option (Fin (n + 1)) → (Fin (n + 1) → Int) → Bool) (levels : List L)
    (m rank g f : Nat) (ops : List (AdvOp n L K)) (hr : 0 < rank) (hm : levels.length ≤ m) (hok : AdvOk levels m ops)
    (c : AdvCtx n L K) (hc : AdvReached valid levels m rank g f ops c) :
    ∃ c', advCopy valid c = some c' ∧ c'.levels = c.levels ∧
      ∀ l ly, c.levels[l]? = some ly → ∃ p p', c.fluxes l = some p ∧ c'.fluxes l = some p' ∧ AdvFits rank g f ly p' ∧
        (∀ k x, p'.onCells.val k x = if k < 2 ∧ valid ly none x = true then p.onCells.val k x else none) ∧
        ∀ d k x, (p'.onFaces d).val k x =
          if d.val < rank ∧ k < 1 ∧ valid ly (some d) x = true then (p.onFaces d).val k x else none := by
  obtain ⟨c1, h1, h, h3, h4, h5⟩ := advReached_inv valid levels m rank g f ops hr hm hok
  have : c1 = c := by
    have h1' : (advConstruct K n levels m rank g f).bind (fun c0 => advRun valid c0 ops) = some c1 := h1
    have hc' : (advConstruct K n levels m rank g f).bind (fun c0 => advRun valid c0 ops) = some c := hc
    rw [h1'] at hc'; exact Option.some.inj hc'
  subst this
  obtain ⟨c', g1, g2, g3, g4, g5, g6, g7, g8⟩ := advCopy_spec valid c1 h
  refine ⟨c', g1, g3, fun l ly hl => ?_⟩
  obtain ⟨p, hp, hfit⟩ := h.fit l ly hl
  refine ⟨p, _, hp, g8 l ly p hl hp, ?_, ?_, ?_⟩
  · rw [← h3, ← h4, ← h5]
    exact advCopyLevel_fits valid _ _ _ _ _ _ _ (advAllocLevel_fits c1 ly h.rank_pos)
  · intro k x
    simp only [advCopyLevel, advParallelCopy, advAllocLevel, advAlloc, hfit.1.1, hfit.1.2.1, and_self]
  · intro d k x
    obtain ⟨f1, f2, _⟩ := hfit.2 d
    rw [← h3]
    by_cases hd : d.val < c1.rank
    · simp only [advCopyLevel, hd, if_true, advParallelCopy, advAllocLevel, advAlloc, advBase, f1, f2, and_self, true_and]
    · simp only [advCopyLevel, hd, if_false, advAllocLevel, advAlloc, false_and]

/-- Valid cells of a row of boxes in one dimension; `(a, b)` are the first and the last cell, faces reach one further. -/
def advRow (ly : Int × Int) (face : Option (Fin 1)) (x : Fin 1 → Int) : Bool :=
  decide (ly.1 ≤ x 0 ∧ x 0 ≤ (if face.isSome then ly.2 + 1 else ly.2))

/-- Writes, regrids, a copy and another write. -/
def advSample : List (AdvOp 0 (Int × Int) ℚ) :=
  [.regrid 1 [(2, 9)], .write 1 (fun k _ => some (k : ℚ)) (fun _ _ x => some (x 0 : ℚ))]

example : AdvOk [((0 : Int), (9 : Int))] 3 advSample := by
  refine ⟨by decide, by decide, by decide, trivial⟩

/-- The copy does not hold what the original holds in its ghost cells, although it is documented to copy all distributed data. -/
theorem advective_fluxes_copy_not_deep :
    ∃ c c' : AdvCtx 0 (Int × Int) ℚ, AdvReached advRow [(0, 9)] 3 1 2 1 advSample c ∧ advCopy advRow c = some c' ∧
      (c.fluxes 1).map (fun p => p.onCells.val 1 (fun _ => 1)) = some (some 1) ∧
      (c'.fluxes 1).map (fun p => p.onCells.val 1 (fun _ => 1)) = some none ∧
      (c'.fluxes 1).map (fun p => p.onCells.val 1 (fun _ => 2)) = some (some 1) ∧
      (c'.fluxes 1).map (fun p => p.onCells.grow 0) = some 3 := by
  refine ⟨_, _, rfl, rfl, ?_, ?_, ?_, ?_⟩ <;> decide +kernel

/-- The hypotheses of the theorem about regrids are met by a history that removes the second level again. -/
example : ∃ c c' : AdvCtx 0 (Int × Int) ℚ, AdvReached advRow [(0, 9)] 3 1 2 1 advSample c ∧
    c.levels = [(0, 9), (2, 9)] ∧ advStep advRow c (.regrid 1 [(4, 5), (4, 4)]) = some c' ∧
    (c'.fluxes 2).map (fun p => p.onCells.layout) = some (4, 4) := by
  refine ⟨_, _, rfl, rfl, rfl, ?_⟩
  decide +kernel

end Fub
