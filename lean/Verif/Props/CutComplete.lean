import Verif.Model.CutComplete
import Verif.Model.Gas
import Verif.Lemmas.PatchIntegrator
import Verif.Props.StableDt

/-!
C184: recomputing the complete states on patches with an embedded boundary.
-/

namespace Fub
variable {S K : Type} [Zero K] [LinearOrder K]

theorem storeCells_off {n : ℕ} (q : Index n → S) (cells : List (Index n)) (vals : List S) (c : Index n) (hc : c ∉ cells) : storeCells q cells vals c = q c := by
  induction cells generalizing q vals with
  | nil => rfl
  | cons x cells ih =>
    cases vals with
    | nil => rfl
    | cons v vals =>
      have h : c ≠ x ∧ c ∉ cells := by simpa using hc
      have := ih (Function.update q x v) vals h.2
      rw [Function.update_of_ne h.1] at this
      exact this

theorem storeCells_on {n : ℕ} (q : Index n → S) (cells : List (Index n)) (vals : List S) (hn : cells.Nodup) (k : ℕ) (hk : k < cells.length) (hv : k < vals.length) :
    storeCells q cells vals cells[k] = vals[k] := by
  induction cells generalizing q vals k with
  | nil => simp at hk
  | cons x cells ih =>
    cases vals with
    | nil => simp at hv
    | cons v vals =>
      rw [List.nodup_cons] at hn
      cases k with
      | zero =>
        show storeCells (Function.update q x v) cells vals x = v
        rw [storeCells_off _ _ _ _ hn.1, Function.update_self]
      | succ k => exact ih (Function.update q x v) vals hn.2 k (by simpa using hk) (by simpa using hv)

/-- The kernel on a row: every cell of the row gets the content of a lane that was computed from this cell, and nothing else changes. -/
theorem cutCompleteRow_spec {n : ℕ} (w : ℕ) (hw : 0 < w) (lane : Bool → S → S → S) (blank : S) (pad : Bool) (gas : Index n → Bool) (len : ℕ) :
    ∀ (s : (Index n → S) × List S) (row : List (Index n)), row.length = len → row.Nodup → s.2.length = w →
      (∀ c, c ∉ row → (cutCompleteRow w hw lane blank pad gas s row).1 c = s.1 c) ∧
      (∀ c ∈ row, ∃ old, (cutCompleteRow w hw lane blank pad gas s row).1 c = lane (gas c) (s.1 c) old) ∧
      (cutCompleteRow w hw lane blank pad gas s row).2.length = w := by
  induction len using Nat.strong_induction_on with
  | _ len ih =>
    intro s row hl hnd hs
    rw [cutCompleteRow]
    split
    · rename_i hle
      have hz : (List.zipWith (fun c old => lane (gas c) (s.1 c) old) (row.take w) s.2).length = w := by simp [hs, hle]
      have hnd' : (row.take w).Nodup ∧ (row.drop w).Nodup ∧ ∀ c ∈ row.take w, c ∉ row.drop w := by
        rw [← List.take_append_drop w row, List.nodup_append] at hnd
        exact ⟨hnd.1, hnd.2.1, fun c h1 h2 => hnd.2.2 c h1 c h2 rfl⟩
      have h := ih (len - w) (by omega)
        (storeCells s.1 (row.take w) (List.zipWith (fun c old => lane (gas c) (s.1 c) old) (row.take w) s.2),
          List.zipWith (fun c old => lane (gas c) (s.1 c) old) (row.take w) s.2) (row.drop w) (by simp [hl]) hnd'.2.1 hz
      refine ⟨fun c hc => ?_, fun c hc => ?_, h.2.2⟩
      · have h1 : c ∉ row.take w := fun h => hc (List.mem_of_mem_take h)
        have h2 : c ∉ row.drop w := fun h => hc (List.mem_of_mem_drop h)
        rw [h.1 c h2]
        exact storeCells_off _ _ _ _ h1
      · by_cases hd : c ∈ row.drop w
        · obtain ⟨old, ho⟩ := h.2.1 c hd
          have h1 : c ∉ row.take w := fun h => hnd'.2.2 c h hd
          refine ⟨old, ho.trans ?_⟩
          show lane (gas c) (storeCells _ _ _ c) old = _
          rw [storeCells_off _ _ _ _ h1]
        · have ht : c ∈ row.take w := by
            rw [← List.take_append_drop w row, List.mem_append] at hc
            tauto
          rw [h.1 c hd]
          obtain ⟨k, hk, rfl⟩ := List.mem_iff_getElem.1 ht
          have hkv : k < (List.zipWith (fun c old => lane (gas c) (s.1 c) old) (row.take w) s.2).length := by
            rw [hz]; simp at hk; omega
          show ∃ old, storeCells s.1 (row.take w) _ _ = _
          rw [storeCells_on _ _ _ hnd'.1 k hk hkv, List.getElem_zipWith]
          exact ⟨_, rfl⟩
    · rename_i hlt
      refine ⟨fun c hc => storeCells_off _ _ _ _ hc, fun c hc => ?_, ?_⟩
      · obtain ⟨k, hk, rfl⟩ := List.mem_iff_getElem.1 hc
        have hk1 : k < (List.zipWith (fun c old => lane (gas c) (s.1 c) old) row s.2).length := by simp [hs]; omega
        show ∃ old, storeCells s.1 row _ _ = _
        rw [storeCells_on _ _ _ hnd k hk (by rw [List.length_append]; omega), List.getElem_append_left hk1, List.getElem_zipWith]
        exact ⟨_, rfl⟩
      · simp [hs]; omega

/-- The kernel on a tile. -/
theorem cutCompleteSimd_spec {n : ℕ} (w : ℕ) (hw : 0 < w) (lane : Bool → S → S → S) (blank : S) (pad : Bool) (gas : Index (n + 1) → Bool)
    (box : IndexBox (n + 1)) (s : (Index (n + 1) → S) × List S) (hs : s.2.length = w) :
    (∀ c, c ∉ box.toSet → (cutCompleteSimd w hw lane blank pad gas box s).1 c = s.1 c) ∧
    (∀ c ∈ box.toSet, ∃ old, (cutCompleteSimd w hw lane blank pad gas box s).1 c = lane (gas c) (s.1 c) old) ∧
    (cutCompleteSimd w hw lane blank pad gas box s).2.length = w := by
  have hb := forEachIndex_spec box
  have hr := forEachIndex_rows box
  have hnd : ((boxRows box).flatten).Nodup := by rw [← hr]; exact hb.2.2
  have hm : ∀ c, c ∈ box.toSet ↔ c ∈ (boxRows box).flatten := fun c => by rw [← hr, hb.1]
  simp only [hm]
  unfold cutCompleteSimd
  generalize boxRows box = rows at hnd
  clear hr hm
  induction rows generalizing s with
  | nil => exact ⟨fun c _ => rfl, fun c hc => by simp at hc, hs⟩
  | cons row rows ih =>
    rw [List.flatten_cons, List.nodup_append] at hnd
    have h1 := cutCompleteRow_spec w hw lane blank pad gas row.length s row rfl hnd.1 hs
    have h2 := ih (cutCompleteRow w hw lane blank pad gas s row) h1.2.2 hnd.2.1
    rw [List.foldl_cons]
    refine ⟨fun c hc => ?_, fun c hc => ?_, h2.2.2⟩
    · rw [List.flatten_cons, List.mem_append, not_or] at hc
      rw [h2.1 c hc.2, h1.1 c hc.1]
    · rw [List.flatten_cons, List.mem_append] at hc
      by_cases hf : c ∈ rows.flatten
      · obtain ⟨old, ho⟩ := h2.2.1 c hf
        refine ⟨old, ?_⟩
        rw [ho, h1.1 c fun h => hnd.2.2 c h c hf rfl]
      · rw [h2.1 c hf]
        exact h1.2.1 c (by tauto)

/-- **C184 (scalar kernel).** The cells of the tile that contain gas get their complete state, all other cells keep what they contain. -/
theorem cutCompleteScalar_spec {n : ℕ} (complete : S → S) (gas : Index n → Bool) (box : IndexBox n) (q : Index n → S) (c : Index n) :
    (c ∈ box.toSet → gas c = true → cutCompleteScalar complete gas box q c = complete (q c)) ∧
    ((c ∉ box.toSet ∨ gas c = false) → cutCompleteScalar complete gas box q c = q c) := by
  have hb := forEachIndex_spec box
  rw [← hb.1 c]
  have hnd := hb.2.2
  unfold cutCompleteScalar
  generalize forEachIndex box = l at hnd
  clear hb
  induction l generalizing q with
  | nil => simp
  | cons x l ih =>
    rw [List.nodup_cons] at hnd
    rw [List.foldl_cons]
    by_cases hx : c = x
    · subst hx
      have h := (ih (if gas c then Function.update q c (complete (q c)) else q) hnd.2).2 (.inl hnd.1)
      rw [h]
      by_cases hg : gas c = true <;> simp [hg]
    · have h := ih (if gas x then Function.update q x (complete (q x)) else q) hnd.2
      have e : (if gas x then Function.update q x (complete (q x)) else q) c = q c := by
        by_cases hg : gas x = true <;> simp [hg, hx]
      rw [e] at h
      simpa [hx] using h

/-! ## The level -/

/-- The kinds of the tiles are those of the geometry: a regular tile has gas in all cells, a covered tile has none. -/
def KindsAgree {n : ℕ} (vol : Index n → K) (tiles : List (CutFabKind × IndexBox n)) : Prop :=
  ∀ t ∈ tiles, (t.1 = .regular → ∀ c ∈ t.2.toSet, 0 < vol c) ∧ (t.1 = .covered → ∀ c ∈ t.2.toSet, ¬ 0 < vol c)

/-- **C184 (gas).** After the call for a level every cell with gas in one of the tiles contains its complete state, for every vector width, tiling and history of the
kernel; cells outside of the tiles are not changed. For the states `P` the two
versions of the function agree and do not change a complete state (tiles may overlap). -/
theorem cutCompleteLevel_gas {n : ℕ} (w : ℕ) (hw : 0 < w) (lane : Bool → S → S → S) (plain : S → S) (blank : S) (vol : Index (n + 1) → K)
    (tiles : List (CutFabKind × IndexBox (n + 1))) (hk : KindsAgree vol tiles) (complete : S → S) (P : S → Prop) (hP : ∀ q, P q → P (complete q))
    (hl : ∀ q, P q → ∀ old, lane true q old = complete q) (hp : ∀ q, P q → plain q = complete q) (hi : ∀ q, P q → complete (complete q) = complete q) (s : (Index (n + 1) → S) × List S) (hs : s.2.length = w) (c : Index (n + 1)) :
    (0 < vol c → P (s.1 c) → (∃ t ∈ tiles, c ∈ t.2.toSet) → (cutCompleteLevel w hw lane plain blank vol tiles s).1 c = complete (s.1 c)) ∧
    ((∀ t ∈ tiles, c ∉ t.2.toSet) → (cutCompleteLevel w hw lane plain blank vol tiles s).1 c = s.1 c) := by
  have key : ∀ (tiles : List (CutFabKind × IndexBox (n + 1))), KindsAgree vol tiles → ∀ (s : (Index (n + 1) → S) × List S), s.2.length = w →
      (0 < vol c → P (s.1 c) → (cutCompleteLevel w hw lane plain blank vol tiles s).1 c = complete (s.1 c) ∨
        ((cutCompleteLevel w hw lane plain blank vol tiles s).1 c = s.1 c ∧ ∀ t ∈ tiles, c ∉ t.2.toSet)) ∧
      ((∀ t ∈ tiles, c ∉ t.2.toSet) → (cutCompleteLevel w hw lane plain blank vol tiles s).1 c = s.1 c) := by
    intro tiles
    induction tiles with
    | nil => intro _ s _; exact ⟨fun _ _ => .inr ⟨rfl, by simp⟩, fun _ => rfl⟩
    | cons t tiles ih =>
      intro hk s hs
      have hk' : KindsAgree vol tiles := fun u hu => hk u (List.mem_cons_of_mem _ hu)
      have hkt := hk t List.mem_cons_self
      obtain ⟨kind, box⟩ := t
      -- the first tile
      have hfirst : ∃ s' : (Index (n + 1) → S) × List S, s'.2.length = w ∧
          cutCompleteLevel w hw lane plain blank vol ((kind, box) :: tiles) s = cutCompleteLevel w hw lane plain blank vol tiles s' ∧
          (c ∉ box.toSet → s'.1 c = s.1 c) ∧ (c ∈ box.toSet → 0 < vol c → P (s.1 c) → s'.1 c = complete (s.1 c)) := by
        cases kind with
        | covered => exact ⟨s, hs, rfl, fun _ => rfl, fun h g _ => absurd g (hkt.2 rfl c h)⟩
        | regular =>
          have h := cutCompleteSimd_spec w hw (fun _ cell _ => plain cell) blank true (fun _ => true) box s hs
          exact ⟨_, h.2.2, rfl, h.1 c, fun hc _ hq => by obtain ⟨old, ho⟩ := h.2.1 c hc; rw [ho, hp _ hq]⟩
        | singlevalued =>
          have h := cutCompleteSimd_spec w hw lane blank false (gasMask vol) box s hs
          exact ⟨_, h.2.2, rfl, h.1 c, fun hc g hq => by obtain ⟨old, ho⟩ := h.2.1 c hc; rw [ho, show gasMask vol c = true from decide_eq_true g, hl _ hq]⟩
      obtain ⟨s', hs', e, hout, hin⟩ := hfirst
      have h := ih hk' s' hs'
      rw [e]
      refine ⟨fun hg hq => ?_, fun ht => ?_⟩
      · by_cases hc : c ∈ box.toSet
        · left
          have hv := hin hc hg hq
          rcases h.1 hg (by rw [hv]; exact hP _ hq) with h | ⟨h, -⟩
          · rw [h, hv, hi _ hq]
          · rw [h, hv]
        · rcases h.1 hg (by rw [hout hc]; exact hq) with h | ⟨h, h'⟩
          · left; rw [h, hout hc]
          · right
            refine ⟨by rw [h, hout hc], fun u hu => ?_⟩
            rcases List.mem_cons.1 hu with rfl | hu
            · exact hc
            · exact h' u hu
      · rw [h.2 fun u hu => ht u (List.mem_cons_of_mem _ hu), hout (ht (kind, box) List.mem_cons_self)]
  refine ⟨fun hg hq ⟨t, ht, hc⟩ => ?_, (key tiles hk s hs).2⟩
  rcases (key tiles hk s hs).1 hg hq with h | ⟨-, h⟩
  · exact h
  · exact absurd hc (h t ht)

/-- **C184 (scalar level).** Without vectors the same holds, and cells without gas are not changed. -/
theorem cutCompleteLevelScalar_spec {n : ℕ} (complete : S → S) (P : S → Prop) (hi : ∀ q, P q → complete (complete q) = complete q) (vol : Index n → K)
    (tiles : List (CutFabKind × IndexBox n)) (hk : KindsAgree vol tiles) (q : Index n → S) (c : Index n) :
    (0 < vol c → P (q c) → (∃ t ∈ tiles, c ∈ t.2.toSet) → cutCompleteLevelScalar complete vol tiles q c = complete (q c)) ∧
    ((¬ 0 < vol c ∨ ∀ t ∈ tiles, c ∉ t.2.toSet) → cutCompleteLevelScalar complete vol tiles q c = q c) := by
  suffices h : ∀ q, (0 < vol c → (∃ t ∈ tiles, c ∈ t.2.toSet) → complete (complete (q c)) = complete (q c) →
      cutCompleteLevelScalar complete vol tiles q c = complete (q c)) ∧
      ((¬ 0 < vol c ∨ ∀ t ∈ tiles, c ∉ t.2.toSet) → cutCompleteLevelScalar complete vol tiles q c = q c) from
    ⟨fun hg hq ht => (h q).1 hg ht (hi _ hq), (h q).2⟩
  clear hi
  intro q
  induction tiles generalizing q with
  | nil => simp [cutCompleteLevelScalar]
  | cons t tiles ih =>
    have hk' : KindsAgree vol tiles := fun u hu => hk u (List.mem_cons_of_mem _ hu)
    have hkt := hk t List.mem_cons_self
    obtain ⟨kind, box⟩ := t
    have hfirst : ∃ q', cutCompleteLevelScalar complete vol ((kind, box) :: tiles) q = cutCompleteLevelScalar complete vol tiles q' ∧
        (c ∈ box.toSet → 0 < vol c → q' c = complete (q c)) ∧ ((c ∉ box.toSet ∨ ¬ 0 < vol c) → q' c = q c) := by
      cases kind with
      | covered => exact ⟨q, rfl, fun h g => absurd g (hkt.2 rfl c h), fun _ => rfl⟩
      | regular =>
        refine ⟨_, rfl, fun hc _ => (cutCompleteScalar_spec complete (fun _ => true) box q c).1 hc rfl, fun h => ?_⟩
        refine (cutCompleteScalar_spec complete (fun _ => true) box q c).2 ?_
        rcases h with h | h
        · exact .inl h
        · left
          intro hc
          exact h (hkt.1 rfl c hc)
      | singlevalued =>
        have h := cutCompleteScalar_spec complete (gasMask vol) box q c
        exact ⟨_, rfl, fun hc g => h.1 hc (decide_eq_true g), fun h' => h.2 (h'.imp id fun g => decide_eq_false g)⟩
    obtain ⟨q', e, hin, hout⟩ := hfirst
    have h := ih hk' q'
    rw [e]
    refine ⟨fun hg ⟨t, ht, hc⟩ hi => ?_, fun ht => ?_⟩
    · by_cases hb : c ∈ box.toSet
      · have hv := hin hb hg
        by_cases hr : ∃ u ∈ tiles, c ∈ u.2.toSet
        · rw [h.1 hg hr (by rw [hv, hi, hi]), hv, hi]
        · push Not at hr
          rw [h.2 (.inr hr), hv]
      · have hr : ∃ u ∈ tiles, c ∈ u.2.toSet := by
          rcases List.mem_cons.1 ht with rfl | ht
          · exact absurd hc hb
          · exact ⟨t, ht, hc⟩
        rw [h.1 hg hr (by rw [hout (.inl hb), hi]), hout (.inl hb)]
    · rcases ht with hg | ht
      · rw [h.2 (.inl hg), hout (.inr hg)]
      · rw [h.2 (.inr fun u hu => ht u (List.mem_cons_of_mem _ hu)), hout (.inl (ht (kind, box) List.mem_cons_self))]

/-- **C184.** Wherever there is gas, the level with vectors and the one without contain the same states. -/
theorem cut_complete_agree {n : ℕ} (w : ℕ) (hw : 0 < w) (lane : Bool → S → S → S) (plain : S → S) (blank : S) (vol : Index (n + 1) → K)
    (tiles : List (CutFabKind × IndexBox (n + 1))) (hk : KindsAgree vol tiles) (complete : S → S) (P : S → Prop) (hP : ∀ q, P q → P (complete q))
    (hl : ∀ q, P q → ∀ old, lane true q old = complete q) (hp : ∀ q, P q → plain q = complete q) (hi : ∀ q, P q → complete (complete q) = complete q) (q : Index (n + 1) → S) (lanes : List S) (hs : lanes.length = w) (c : Index (n + 1)) (hg : 0 < vol c) (hq : P (q c)) :
    (cutCompleteLevel w hw lane plain blank vol tiles (q, lanes)).1 c = cutCompleteLevelScalar complete vol tiles q c := by
  have h1 := cutCompleteLevel_gas w hw lane plain blank vol tiles hk complete P hP hl hp hi (q, lanes) hs c
  have h2 := cutCompleteLevelScalar_spec complete P hi vol tiles hk q c
  by_cases hc : ∃ t ∈ tiles, c ∈ t.2.toSet
  · rw [h1.1 hg hq hc, h2.1 hg hq hc]
  · push Not at hc
    rw [h1.2 hc, h2.2 (.inr hc)]

/-! ## Covered cells -/

/-- **C184 (perfect gas, covered cells).** The vector version does not keep covered cells: they become zero. The same happens to a cell with gas whose density is not
positive: its momentum and energy are lost without an error. -/
theorem gas_covered_zero {d : ℕ} (eq : GasEq) (u : GasCons d) (mask : Bool) (h : mask = false ∨ ¬ 0 < u.density) :
    gasCompleteMasked eq u mask = ⟨0, fun _ => 0, 0, 0, 0⟩ := by
  have hm : (mask && decide (0 < u.density)) = false := by
    rcases h with h | h <;> simp [h]
  unfold gasCompleteMasked
  rw [hm]
  simp

/-- **C184 (perfect gas, gas).** For the perfect gas with positive density the level theorem applies: all cells with gas get pressure and speed of sound of their
conservative variables. -/
theorem gas_complete_level {n d : ℕ} (w : ℕ) (hw : 0 < w) (eq : GasEq) (blank : GasComplete d) (vol : Index (n + 1) → K)
    (tiles : List (CutFabKind × IndexBox (n + 1))) (hk : KindsAgree vol tiles) (s : (Index (n + 1) → GasComplete d) × List (GasComplete d)) (hs : s.2.length = w)
    (c : Index (n + 1)) (hv : 0 < vol c) (hr : 0 < (s.1 c).density) (ht : ∃ t ∈ tiles, c ∈ t.2.toSet) :
    (cutCompleteLevel w hw (gasLane eq) (fun q => gasCompleteArray eq q.cons) blank vol tiles s).1 c = gasCompleteArray eq (s.1 c).cons := by
  refine (cutCompleteLevel_gas w hw (gasLane eq) (fun q => gasCompleteArray eq q.cons) blank vol tiles hk (fun q => gasCompleteArray eq q.cons)
    (fun q => 0 < q.density) (fun q hq => hq) (fun q hq old => ?_) (fun q _ => rfl) (fun q _ => rfl) s hs c).1 hv hr ht
  have h' : 0 < q.cons.density := hq
  simp [gasLane, gasCompleteMasked, gasCompleteArray, gasKineticMasked, gasKinetic, h']

/-- Its hypotheses are met: gas of density 2 in the half open cell 3 of a row with a covered cell. -/
example (eq : GasEq) (z : GasComplete 1) :
    (cutCompleteLevel 2 (by decide) (gasLane eq) (fun q => gasCompleteArray eq q.cons) z (fun i : Index 1 => if i 0 = 2 then (0 : ℚ) else 1 / 2)
      [(.singlevalued, ⟨![0], ![4]⟩)] (fun _ => ⟨2, fun _ => 2, 5, 0, 0⟩, [z, z])).1 ![3] = gasCompleteArray eq ⟨2, fun _ => 2, 5⟩ := by
  refine gas_complete_level 2 (by decide) eq z _ _ ?_ _ rfl ![3] (by simp) (by simp) ⟨_, List.mem_cons_self, by intro d; fin_cases d; simp⟩
  intro t ht
  simp only [List.mem_cons, List.not_mem_nil, or_false] at ht
  subst ht
  simp

/-- **C184 (perfect gas).** In a tile with cut cells the vector version for the perfect gas sets all covered cells to zero. -/
theorem gas_covered_tile {n d : ℕ} (w : ℕ) (hw : 0 < w) (eq : GasEq) (blank : GasComplete d) (vol : Index (n + 1) → K) (box : IndexBox (n + 1))
    (s : (Index (n + 1) → GasComplete d) × List (GasComplete d)) (hs : s.2.length = w) (c : Index (n + 1)) (hc : c ∈ box.toSet) (hv : ¬ 0 < vol c) :
    (cutCompleteSimd w hw (gasLane eq) blank false (gasMask vol) box s).1 c = ⟨0, fun _ => 0, 0, 0, 0⟩ := by
  obtain ⟨old, ho⟩ := (cutCompleteSimd_spec w hw (gasLane eq) blank false (gasMask vol) box s hs).2.1 c hc
  rw [ho]
  exact gas_covered_zero eq _ _ (.inl (decide_eq_false hv))

/-- **C184 is false of covered cells for equations without a `CompleteFromCons` of their own.** The vector version does not keep the content of a covered cell: with vectors of
two lanes the covered third cell of a row becomes a copy of the first one; and in the first chunk it becomes what the kernel was used for last. -/
theorem cut_complete_copies :
    let q : Index 1 → ℚ := fun i => 10 + (i 0 : ℤ)
    let vol : Index 1 → ℚ := fun i => if i 0 = 2 then 0 else 1 / 2
    let r := cutCompleteLevel 2 (by decide) laneSelect id 0 vol [(.singlevalued, ⟨![0], ![4]⟩)] (q, [7, 8])
    let r' := cutCompleteLevel 2 (by decide) laneSelect id 0 vol [(.singlevalued, ⟨![2], ![4]⟩)] (q, [7, 8])
    KindsAgree vol [(.singlevalued, ⟨![0], ![4]⟩)] ∧ (r.1 ![0], r.1 ![1], r.1 ![2], r.1 ![3]) = (10, 11, 10, 13) ∧ r'.1 ![2] = 7 ∧
      cutCompleteLevelScalar id vol [(.singlevalued, ⟨![0], ![4]⟩)] q ![2] = 12 := by
  refine ⟨?_, by decide +kernel, by decide +kernel, by decide +kernel⟩
  intro t ht
  simp only [List.mem_cons, List.not_mem_nil, or_false] at ht
  subst ht
  simp

/-- A level with a cut, a covered and a regular tile; the cell 2 is covered. -/
def exTiles : List (CutFabKind × IndexBox 1) := [(.singlevalued, ⟨![0], ![4]⟩), (.covered, ⟨![2], ![3]⟩), (.regular, ⟨![3], ![9]⟩)]

/-- States of its cells. -/
def exStates : Index 1 → ℚ := fun i => 10 + ((i 0 : ℤ) : ℚ)

/-- The hypotheses of the level theorems are met by that level, with vectors of three lanes and an equation without a function of its own. -/
example (c : Index 1) (hc : (0 : ℚ) < if c 0 = 2 then 0 else 1 / 2) :
    (cutCompleteLevel 3 (by decide) laneSelect id (0 : ℚ) (fun i => if i 0 = 2 then (0 : ℚ) else 1 / 2) exTiles (exStates, [1, 2, 3])).1 c =
      cutCompleteLevelScalar id (fun i => if i 0 = 2 then (0 : ℚ) else 1 / 2) exTiles exStates c := by
  refine cut_complete_agree 3 (by decide) laneSelect id 0 (fun i => if i 0 = 2 then (0 : ℚ) else 1 / 2) exTiles ?_ id (fun _ => True) (fun _ _ => trivial)
    (fun q _ old => rfl) (fun q _ => rfl) (fun q _ => rfl) exStates [1, 2, 3] rfl c hc trivial
  intro t ht
  simp only [exTiles, List.mem_cons, List.not_mem_nil, or_false] at ht
  rcases ht with rfl | rfl | rfl
  · simp
  · refine ⟨by simp, fun _ c hc => ?_⟩
    have h := hc 0
    simp at h
    have : c 0 = 2 := by omega
    simp [this]
  · refine ⟨fun _ c hc => ?_, by simp⟩
    have h := hc 0
    simp at h
    have : c 0 ≠ 2 := by omega
    simp [this]

end Fub
