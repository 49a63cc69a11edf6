import Verif.Spec.BlockGridding

/-! # C211: gridding of coupled blocks: boundaries, copies and regridding -/

namespace Fub

variable {T P V C : Type}

theorem blockBdryRow_get (gcw : C → Nat) (valves : Option (List Nat)) (level : Nat) (cs : List C) :
    ∀ (k i : Nat), (blockBdryRow gcw valves level cs k)[i]? =
      (cs[i]?).map fun c => { conn := c, number := k + i, level := level, gcw := gcw c, valve := valves.bind fun vs => vs[k + i]? } := by
  induction cs with
  | nil => intro k i; simp [blockBdryRow]
  | cons c cs ih =>
    intro k i
    cases i with
    | zero => simp [blockBdryRow]
    | succ i =>
      simp only [blockBdryRow, List.getElem?_cons_succ, ih]
      have : k + 1 + i = k + (i + 1) := by omega
      rw [this]

theorem blockBdryLevels_some (gcw : C → Nat) (valves : Option (List Nat)) (conns : List C)
    (hv : (valves.map List.length).getD conns.length = conns.length) :
    ∀ (m level : Nat), ∃ bs, blockBdryLevels gcw valves conns m level = some bs ∧ bs.length = m ∧
      ∀ l, l < m → bs[l]? = some (blockBdryRow gcw valves (level + l) conns 0) := by
  intro m
  induction m with
  | zero => intro level; exact ⟨[], rfl, rfl, by intro l h; omega⟩
  | succ m ih =>
    intro level
    obtain ⟨bs, h1, h2, h3⟩ := ih (level + 1)
    refine ⟨blockBdryRow gcw valves level conns 0 :: bs, by simp only [blockBdryLevels, hv, if_true, h1, Option.map_some], by simp [h2], ?_⟩
    intro l hl
    cases l with
    | zero => simp
    | succ l =>
      rw [List.getElem?_cons_succ, h3 l (by omega)]
      congr 2; omega

/-- **C211.** If there is a first plenum, and one valve per connection if there are valves at all, then every level the first plenum may
have gets exactly one boundary per connection, in the order of the connections, with the number, width and valve of the connection. -/
theorem block_gridding_boundaries (maxLevels : P → Nat) (gcw : C → Nat) (h : BlockHeap T P V) (tubes plena : List Nat)
    (conns : List C) (valves : Option (List Nat)) (first : Nat) (p : P) (hf : plena[0]? = some first) (hp : h.plena[first]? = some p)
    (hv : ∀ vs, valves = some vs → vs.length = conns.length) :
    ∃ g, blockConstruct maxLevels gcw h tubes plena conns valves = some g ∧ g.tubes = tubes ∧ g.plena = plena ∧ g.conns = conns ∧
      g.boundaries.length = maxLevels p ∧
      ∀ l, l < maxLevels p → ∃ row, g.boundaries[l]? = some row ∧ row.length = conns.length ∧
        ∀ (k : Nat) (c : C), conns[k]? = some c → ∃ b : BlockBdry C, row[k]? = some b ∧ b.conn = c ∧ b.number = k ∧ b.level = l ∧ b.gcw = gcw c ∧
          (valves = none → b.valve = none) ∧ ∀ vs, valves = some vs → b.valve = vs[k]? ∧ b.valve ≠ none := by
  have hv' : (valves.map List.length).getD conns.length = conns.length := by
    cases valves with
    | none => rfl
    | some vs => simpa using hv vs rfl
  obtain ⟨bs, h1, h2, h3⟩ := blockBdryLevels_some gcw valves conns hv' (maxLevels p) 0
  refine ⟨{ tubes := tubes, plena := plena, conns := conns, boundaries := bs },
    by simp [blockConstruct, hf, hp, h1], rfl, rfl, rfl, h2, fun l hl => ?_⟩
  refine ⟨_, h3 l hl, ?_, fun k c hk => ?_⟩
  · apply Nat.le_antisymm
    · by_contra hcon
      have := blockBdryRow_get gcw valves (0 + l) conns 0 conns.length
      rw [List.getElem?_eq_getElem (by omega)] at this
      simp at this
    · by_contra hcon
      have := blockBdryRow_get gcw valves (0 + l) conns 0 (blockBdryRow gcw valves (0 + l) conns 0).length
      rw [List.getElem?_eq_none (by omega), List.getElem?_eq_getElem (by omega)] at this
      simp at this
  · refine ⟨_, by rw [blockBdryRow_get, hk]; rfl, rfl, by simp, by simp, rfl, fun hn => by simp [hn], fun vs hvs => ?_⟩
    have hlt : k < conns.length := (List.getElem?_eq_some_iff.1 hk).1
    have := hv vs hvs
    simp [hvs]; omega

/-- **C211.** A wrong number of valves is noticed as soon as there is a level. -/
theorem block_gridding_valves (maxLevels : P → Nat) (gcw : C → Nat) (h : BlockHeap T P V) (tubes plena : List Nat)
    (conns : List C) (vs : List Nat) (first : Nat) (p : P) (hf : plena[0]? = some first) (hp : h.plena[first]? = some p)
    (hl : 0 < maxLevels p) (hv : vs.length ≠ conns.length) : blockConstruct maxLevels gcw h tubes plena conns (some vs) = none := by
  obtain ⟨m, hm⟩ := Nat.exists_eq_succ_of_ne_zero (by omega : maxLevels p ≠ 0)
  simp [blockConstruct, hf, hp, hm, blockBdryLevels, hv]

/-- The loop that clones. -/
theorem cloneAll_spec {A : Type} (as : List Nat) : ∀ store : List A, (∀ a ∈ as, a < store.length) →
    ∃ bs ext, cloneAll as store = some (bs, store ++ ext) ∧ bs = List.range' store.length as.length ∧
      ext.map some = as.map (fun a => store[a]?) := by
  induction as with
  | nil => intro store _; exact ⟨[], [], by simp [cloneAll], by simp, rfl⟩
  | cons a as ih =>
    intro store hval
    have ha : a < store.length := hval a (by simp)
    obtain ⟨bs, ext, h1, h2, h3⟩ := ih (store ++ [store[a]]) (fun b hb => by
      have := hval b (by simp [hb]); simp; omega)
    refine ⟨store.length :: bs, store[a] :: ext, ?_, ?_, ?_⟩
    · simp only [cloneAll, List.getElem?_eq_getElem ha, Option.bind_eq_bind, Option.bind_some, h1]
      simp
    · rw [h2]; simp [List.range'_succ]
    · simp only [List.map_cons, h3, List.getElem?_eq_getElem ha]
      congr 1
      apply List.map_congr_left
      intro b hb
      have := hval b (by simp [hb])
      rw [List.getElem?_append_left this]

theorem cloneAll_seen {A : Type} (as bs : List Nat) (store ext : List A) (hb : bs = List.range' store.length as.length)
    (he : ext.map some = as.map (fun a => store[a]?)) : bs.map (fun b => (store ++ ext)[b]?) = as.map (fun a => store[a]?) := by
  have hlen : ext.length = as.length := by have := congrArg List.length he; simpa using this
  rw [← he, hb]
  apply List.ext_getElem?
  intro i
  by_cases hi : i < as.length
  · have hi' : i < ext.length := by omega
    simp [List.getElem?_map, List.getElem?_range', hi, hi']
  · simp [List.getElem?_map, hi, hlen]

/-- **C211.** A copy shows the same tubes, plena, connections and boundaries as the original. Its tubes and plena are new objects, each
one its own: no later change of them is visible in the original, which still shows what it showed before. -/
theorem block_gridding_copy_partial (h : BlockHeap T P V) (g : BlockGrid C) (hg : g.Valid h) :
    ∃ h' g', blockCopy h g = some (h', g') ∧ g'.Valid h' ∧ g'.conns = g.conns ∧ g'.boundaries = g.boundaries ∧
      tubesSeen h' g' = tubesSeen h g ∧ plenaSeen h' g' = plenaSeen h g ∧ valvesSeen h' g' = valvesSeen h g ∧
      tubesSeen h' g = tubesSeen h g ∧ plenaSeen h' g = plenaSeen h g ∧
      g'.tubes.Nodup ∧ g'.plena.Nodup ∧ (∀ a ∈ g'.tubes, a ∉ g.tubes) ∧ ∀ a ∈ g'.plena, a ∉ g.plena := by
  obtain ⟨bt, et, t1, t2, t3⟩ := cloneAll_spec g.tubes h.tubes hg.1
  obtain ⟨bp, ep, p1, p2, p3⟩ := cloneAll_spec g.plena h.plena hg.2
  have lt : et.length = g.tubes.length := by have := congrArg List.length t3; simpa using this
  have lp : ep.length = g.plena.length := by have := congrArg List.length p3; simpa using this
  refine ⟨{ h with tubes := h.tubes ++ et, plena := h.plena ++ ep }, { g with tubes := bt, plena := bp }, ?_, ⟨?_, ?_⟩, rfl, rfl,
    cloneAll_seen _ _ _ _ t2 t3, cloneAll_seen _ _ _ _ p2 p3, rfl, ?_, ?_, ?_, ?_, ?_, ?_⟩
  · simp [blockCopy, t1, p1]
  · intro a ha; simp only [t2, List.mem_range'_1] at ha; simp; omega
  · intro a ha; simp only [p2, List.mem_range'_1] at ha; simp; omega
  · apply List.map_congr_left; intro a ha; exact List.getElem?_append_left (hg.1 a ha)
  · apply List.map_congr_left; intro a ha; exact List.getElem?_append_left (hg.2 a ha)
  · rw [t2]; exact List.nodup_range'
  · rw [p2]; exact List.nodup_range'
  · intro a ha hc; simp only [t2, List.mem_range'_1] at ha; have := hg.1 a hc; omega
  · intro a ha hc; simp only [p2, List.mem_range'_1] at ha; have := hg.2 a hc; omega

theorem modifyAll_get {A : Type} (f : A → A) (as : List Nat) : ∀ (s : List A) (b : Nat), as.Nodup →
    (as.foldl (fun s a => s.modify a f) s)[b]? = if b ∈ as then (s[b]?).map f else s[b]? := by
  induction as with
  | nil => intro s b _; simp
  | cons a as ih =>
    intro s b hnd
    obtain ⟨hna, hnd'⟩ := List.nodup_cons.1 hnd
    rw [List.foldl_cons, ih _ _ hnd', List.getElem?_modify]
    by_cases hab : a = b
    · subst hab; simp [hna]
    · have : b ≠ a := fun h => hab h.symm
      simp [hab, this]

/-- **C211.** Regridding treats every tube and every plenum of the gridding once and no other block; in particular regridding a copy
leaves the original as it was. -/
theorem block_gridding_regrid (ft : T → T) (fp : P → P) (h : BlockHeap T P V) (g : BlockGrid C) (ht : g.tubes.Nodup)
    (hp : g.plena.Nodup) :
    tubesSeen (blockRegrid ft fp h g) g = (tubesSeen h g).map (Option.map ft) ∧
    plenaSeen (blockRegrid ft fp h g) g = (plenaSeen h g).map (Option.map fp) ∧
    (∀ o : BlockGrid C, (∀ a ∈ g.tubes, a ∉ o.tubes) → tubesSeen (blockRegrid ft fp h g) o = tubesSeen h o) ∧
    (∀ o : BlockGrid C, (∀ a ∈ g.plena, a ∉ o.plena) → plenaSeen (blockRegrid ft fp h g) o = plenaSeen h o) ∧
    valvesSeen (blockRegrid ft fp h g) g = valvesSeen h g := by
  refine ⟨?_, ?_, fun o ho => ?_, fun o ho => ?_, rfl⟩
  · simp only [tubesSeen, List.map_map]
    apply List.map_congr_left; intro a ha
    simp only [blockRegrid, modifyAll_get ft g.tubes _ _ ht, ha, if_true, Function.comp]
  · simp only [plenaSeen, List.map_map]
    apply List.map_congr_left; intro a ha
    simp only [blockRegrid, modifyAll_get fp g.plena _ _ hp, ha, if_true, Function.comp]
  · apply List.map_congr_left; intro a ha
    have : a ∉ g.tubes := fun hc => ho a hc ha
    simp only [blockRegrid, modifyAll_get ft g.tubes _ _ ht, this, if_false]
  · apply List.map_congr_left; intro a ha
    have : a ∉ g.plena := fun hc => ho a hc ha
    simp only [blockRegrid, modifyAll_get fp g.plena _ _ hp, this, if_false]

/-- Two tubes at one plenum, with valves, on two levels. -/
def sampleBlocks : BlockHeap Nat Nat Bool := { tubes := [10, 11], plena := [20], valves := [true, false] }

/-- The gridding of these blocks. -/
def sampleBlockGrid : Option (BlockGrid Nat) := blockConstruct (fun _ => 2) (fun c => c) sampleBlocks [0, 1] [0] [4, 5] (some [0, 1])

/-- The hypotheses of the theorems are met. -/
example : ∃ g, sampleBlockGrid = some g ∧ g.tubes.Nodup ∧ g.plena.Nodup ∧ g.Valid sampleBlocks ∧
    valvesSeen sampleBlocks g = [[some true, some false], [some true, some false]] := by
  refine ⟨_, rfl, by decide, by decide, ⟨?_, ?_⟩, by decide⟩ <;> decide

/-- The valves are shared between the original and its copy: closing a valve of the copy closes that of the original. -/
theorem block_gridding_copy_shares_valves :
    ∃ (g g' : BlockGrid Nat) (h' : BlockHeap Nat Nat Bool), sampleBlockGrid = some g ∧ blockCopy sampleBlocks g = some (h', g') ∧
      (g'.boundaries.map (fun row => row.map BlockBdry.valve))[0]? = some [some 0, some 1] ∧
      valvesSeen { h' with valves := h'.valves.set 0 false } g ≠ valvesSeen h' g := by
  refine ⟨_, _, _, rfl, rfl, by decide, by decide⟩

end Fub
