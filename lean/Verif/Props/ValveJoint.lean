import Verif.Spec.ValveJoint
import Verif.Props.Boundary

/-! C193: the boundary condition between a tube and a plenum with a valve. -/

namespace Fub
variable {n : Nat} {α : Type}

theorem mem_boxAnd (a b : IndexBox n) (i : Index n) : i ∈ (boxAnd a b).toSet ↔ i ∈ a.toSet ∧ i ∈ b.toSet := by
  constructor
  · intro h
    have h' : ∀ d, max (a.lower d) (b.lower d) ≤ i d ∧ i d < min (a.upper d) (b.upper d) := h
    refine ⟨fun d => ?_, fun d => ?_⟩ <;> have := h' d <;> constructor <;> omega
  · rintro ⟨h1, h2⟩ d
    have h1' : ∀ d, a.lower d ≤ i d ∧ i d < a.upper d := h1
    have h2' : ∀ d, b.lower d ≤ i d ∧ i d < b.upper d := h2
    have := h1' d
    have := h2' d
    show max (a.lower d) (b.lower d) ≤ i d ∧ i d < min (a.upper d) (b.upper d)
    omega

theorem fold_store (cond : Index n → Bool) (value : Index n → α) (l : List (Index n)) (data : Index n → α) (x : Index n) :
    l.foldl (fun d i => if cond i then Function.update d i (value i) else d) data x = if x ∈ l ∧ cond x = true then value x else data x := by
  induction l generalizing data with
  | nil => simp
  | cons a l ih =>
    rw [List.foldl_cons, ih]
    by_cases hl : x ∈ l ∧ cond x = true
    · have : x ∈ a :: l ∧ cond x = true := ⟨List.mem_cons_of_mem _ hl.1, hl.2⟩
      simp only [hl, this, and_self, if_true]
    · simp only [hl, if_false]
      by_cases ha : x = a
      · subst ha
        by_cases hc : cond x = true
        · simp [hc]
        · simp [hc]
      · by_cases hc : cond a = true
        · simp only [hc, if_true, Function.update_of_ne ha, List.mem_cons, ha, false_or, hl, if_false]
        · simp only [hc, List.mem_cons, ha, false_or, hl, if_false]
          simp

theorem fold_store_all (value : Index n → α) (l : List (Index n)) (data : Index n → α) (x : Index n) :
    l.foldl (fun d i => Function.update d i (value i)) data x = if x ∈ l then value x else data x := by
  have := fold_store (fun _ => true) value l data x
  simpa using this

/-- **C193.** A closed valve leaves the tube alone: its ghost cells keep what the boundary condition of the tube put there. -/
theorem tube_closed (ghostCells : IndexBox (n + 1)) (store : Index (n + 1) → α) (pos : α → Bool) (fuel : α → α) (valid grown : IndexBox (n + 1)) (data : Index (n + 1) → α) :
    tubeJointFill (some .closed) ghostCells store pos fuel valid grown data = data := by
  simp [tubeJointFill]

/-- **C193.** Without a valve, or if it is open for air, exactly the ghost cells of the tube with a stored state of positive density get this state. -/
theorem tube_open (v : Option ValveState) (hv : v ≠ some .closed) (hf : v ≠ some .openFuel) (ghostCells : IndexBox (n + 1)) (store : Index (n + 1) → α) (pos : α → Bool) (fuel : α → α) (valid grown : IndexBox (n + 1))
    (data : Index (n + 1) → α) (x : Index (n + 1)) [Decidable (x ∈ grown.toSet ∧ x ∈ ghostCells.toSet ∧ pos (store x) = true)] :
    tubeJointFill v ghostCells store pos fuel valid grown data x = if x ∈ grown.toSet ∧ x ∈ ghostCells.toSet ∧ pos (store x) = true then store x else data x := by
  simp only [tubeJointFill, hv, hf, if_false]
  by_cases hm : boxMeets grown ghostCells = true
  · simp only [hm, if_true]
    rw [fold_store (fun i => pos (store i)) store]
    simp only [mem_forEachIndex, mem_boxAnd, and_assoc]
  · have hn : ¬ (x ∈ grown.toSet ∧ x ∈ ghostCells.toSet ∧ pos (store x) = true) := by
      rintro ⟨h1, h2, -⟩
      apply hm
      rw [boxMeets_iff]
      intro d
      have h1' : ∀ d, grown.lower d ≤ x d ∧ x d < grown.upper d := h1
      have h2' : ∀ d, ghostCells.lower d ≤ x d ∧ x d < ghostCells.upper d := h2
      have := h1' d
      have := h2' d
      omega
    simp only [hn, if_false, hm]
    simp

theorem runValve_spec (fab : IndexBox n) (isOpen : Index n → Bool) (pos : α → Bool) (reflect : α → α) (m : Index n → Index n) (l : List (Index n × Index n)) (S : Index n → Prop) (hS : ∀ p ∈ l, S p.1)
    (hm : ∀ p ∈ l, p.2 = m p.1) (hin : ∀ p ∈ l, fab.contains p.1 = true ∧ fab.contains p.2 = true) (hd : ∀ x, S x → ¬ S (m x)) (data : Index n → α) :
    ∃ d', runValve fab isOpen pos reflect l data = some d' ∧ ∀ x, (x ∈ l.map Prod.fst ∧ isOpen (m x) = true ∧ pos (data (m x)) = true → d' x = reflect (data (m x)))
      ∧ (¬ (x ∈ l.map Prod.fst ∧ isOpen (m x) = true ∧ pos (data (m x)) = true) → d' x = data x) := by
  induction l generalizing data with
  | nil => exact ⟨data, rfl, fun x => ⟨fun h => absurd h.1 (by simp), fun _ => rfl⟩⟩
  | cons p l ih =>
    have hp := hin p List.mem_cons_self
    have hp2 := hm p List.mem_cons_self
    have hSp := hS p List.mem_cons_self
    set data' := (if isOpen p.2 && pos (data p.2) then Function.update data p.1 (reflect (data p.2)) else data) with hdata
    obtain ⟨d', he, hx⟩ := ih (fun q hq => hS q (List.mem_cons_of_mem _ hq)) (fun q hq => hm q (List.mem_cons_of_mem _ hq)) (fun q hq => hin q (List.mem_cons_of_mem _ hq)) data'
    have hsame : ∀ y, y ≠ p.1 → data' y = data y := by
      intro y hy
      rw [hdata]
      split
      · exact Function.update_of_ne hy _ _
      · rfl
    have hsrc : ∀ x, S x → data' (m x) = data (m x) := fun x hxS => hsame _ (fun h => hd x hxS (h ▸ hSp))
    refine ⟨d', by simp only [runValve, hp.1, hp.2, Bool.and_self, if_true]; exact he, fun x => ?_⟩
    have hxl := hx x
    by_cases hin' : x ∈ l.map Prod.fst
    · have hSx : S x := by
        obtain ⟨q, hq, rfl⟩ := List.mem_map.mp hin'
        exact hS q (List.mem_cons_of_mem _ hq)
      rw [hsrc x hSx] at hxl
      constructor
      · rintro ⟨-, h1, h2⟩; exact hxl.1 ⟨hin', h1, h2⟩
      · intro h
        have hno : ¬ (isOpen (m x) = true ∧ pos (data (m x)) = true) := fun hh => h ⟨by simp only [List.map_cons, List.mem_cons]; exact Or.inr hin', hh⟩
        rw [hxl.2 (fun hh => hno hh.2)]
        by_cases hxp : x = p.1
        · subst hxp
          rw [hdata, hp2]
          have : ¬ ((isOpen (m p.1) && pos (data (m p.1))) = true) := by simpa using hno
          simp only [this]
          simp
        · exact hsame x hxp
    · have e := hxl.2 (fun hh => hin' hh.1)
      by_cases hxp : x = p.1
      · subst hxp
        constructor
        · rintro ⟨-, h1, h2⟩
          rw [e, hdata, hp2]
          simp [h1, h2]
        · intro h
          have hno : ¬ ((isOpen (m p.1) && pos (data (m p.1))) = true) := by
            intro hh
            rw [Bool.and_eq_true] at hh
            exact h ⟨by simp, hh⟩
          rw [e, hdata, hp2]
          simp only [hno]
          simp
      · constructor
        · rintro ⟨h1, -⟩
          simp only [List.map_cons, List.mem_cons] at h1
          rcases h1 with h1 | h1
          · exact absurd h1 hxp
          · exact absurd h1 hin'
        · intro _
          rw [e]; exact hsame x hxp

theorem reflect_jointMirror (ghostCells t : IndexBox n) (dir : Fin n) (side : Int) (hside : side = 0 ∨ side = 1) (hr : if side = 0 then ghostCells.upper dir ≤ t.upper dir else t.lower dir ≤ ghostCells.lower dir) (x : Index n) :
    reflectIndex x (boxAnd t ghostCells) dir side = jointMirror ghostCells dir side x := by
  rcases hside with rfl | rfl
  · simp only [if_true] at hr
    simp only [reflectIndex, jointMirror, boxAnd, if_true]
    congr 1
    omega
  · simp only [one_ne_zero, if_false] at hr
    simp only [reflectIndex, jointMirror, boxAnd, one_ne_zero, if_false]
    congr 1
    omega

/-- **C193.** A closed valve is a wall for the plenum: the ghost cells of the joint get the mirror image of the block, where the mirrored cell is open and holds gas; all other cells keep their state. -/
theorem plenum_closed (ghostCells : IndexBox n) (store : Index n → α) (isOpen : Index n → Bool) (pos : α → Bool) (reflect : α → α) (dir : Fin n) (side : Int) (hside : side = 0 ∨ side = 1) (p : PatchTiles n)
    (hr : TilesReach ghostCells dir side p.tiles) (hin : ∀ t ∈ p.tiles, ∀ x ∈ t.toSet, x ∈ ghostCells.toSet → x ∈ p.fab.toSet ∧ jointMirror ghostCells dir side x ∈ p.fab.toSet) (data : Index n → α) :
    ∃ d', plenumJointFill (some .closed) ghostCells store isOpen pos reflect dir side p data = some d' ∧
      ∀ x, ((∃ t ∈ p.tiles, x ∈ t.toSet) ∧ x ∈ ghostCells.toSet ∧ isOpen (jointMirror ghostCells dir side x) = true ∧ pos (data (jointMirror ghostCells dir side x)) = true → d' x = reflect (data (jointMirror ghostCells dir side x)))
        ∧ (¬ ((∃ t ∈ p.tiles, x ∈ t.toSet) ∧ x ∈ ghostCells.toSet ∧ isOpen (jointMirror ghostCells dir side x) = true ∧ pos (data (jointMirror ghostCells dir side x)) = true) → d' x = data x) := by
  set l := ghostCopies p.tiles [ghostCells] fun box i => reflectIndex i box dir side with hl
  have hmem : ∀ q ∈ l, ∃ t ∈ p.tiles, q.1 ∈ t.toSet ∧ q.1 ∈ ghostCells.toSet ∧ q.2 = jointMirror ghostCells dir side q.1 := by
    intro q hq
    simp only [hl, ghostCopies, List.mem_flatMap, List.mem_map, List.mem_singleton] at hq
    obtain ⟨t, ht, b, rfl, i, hi, rfl⟩ := hq
    rw [mem_forEachIndex, mem_boxAnd] at hi
    exact ⟨t, ht, hi.1, hi.2, reflect_jointMirror b t dir side hside (hr t ht) i⟩
  have hmem' : ∀ x, x ∈ l.map Prod.fst ↔ (∃ t ∈ p.tiles, x ∈ t.toSet) ∧ x ∈ ghostCells.toSet := by
    intro x
    constructor
    · intro hx
      obtain ⟨q, hq, rfl⟩ := List.mem_map.mp hx
      obtain ⟨t, ht, h1, h2, -⟩ := hmem q hq
      exact ⟨⟨t, ht, h1⟩, h2⟩
    · rintro ⟨⟨t, ht, h1⟩, h2⟩
      refine List.mem_map.mpr ⟨(x, reflectIndex x (boxAnd t ghostCells) dir side), ?_, rfl⟩
      simp only [hl, ghostCopies, List.mem_flatMap, List.mem_map, List.mem_singleton]
      exact ⟨t, ht, ghostCells, rfl, x, (mem_forEachIndex _ _).mpr ((mem_boxAnd _ _ _).mpr ⟨h1, h2⟩), rfl⟩
  have hcontains : ∀ (b : IndexBox n) (x : Index n), x ∈ b.toSet → b.contains x = true := by
    intro b x hx
    exact (contains_iff b x).mpr hx
  obtain ⟨d', he, hx⟩ := runValve_spec p.fab isOpen pos reflect (jointMirror ghostCells dir side) l (fun x => x ∈ ghostCells.toSet) (fun q hq => (hmem q hq).choose_spec.2.2.1) (fun q hq => (hmem q hq).choose_spec.2.2.2)
    (fun q hq => by
      obtain ⟨t, ht, h1, h2, h3⟩ := hmem q hq
      have := hin t ht q.1 h1 h2
      rw [h3]
      exact ⟨hcontains _ _ this.1, hcontains _ _ this.2⟩)
    (fun x hx hmx => by
      have h1 : ∀ d, ghostCells.lower d ≤ x d ∧ x d < ghostCells.upper d := hx
      have h2 : ∀ d, ghostCells.lower d ≤ jointMirror ghostCells dir side x d ∧ jointMirror ghostCells dir side x d < ghostCells.upper d := hmx
      have h1 := h1 dir
      have h2 := h2 dir
      simp only [jointMirror, Function.update_self] at h2
      split at h2 <;> omega)
    data
  refine ⟨d', by simp only [plenumJointFill, if_true]; exact he, fun x => ?_⟩
  have := hx x
  rw [hmem' x] at this
  constructor
  · rintro ⟨h1, h2, h3, h4⟩; exact this.1 ⟨⟨h1, h2⟩, h3, h4⟩
  · intro h; exact this.2 (fun hh => h ⟨hh.1.1, hh.1.2, hh.2⟩)

/-- **C193.** An open valve, or none: every ghost cell of the joint in the patch gets the stored state of its position along the tube, and no other cell changes. -/
theorem plenum_open (v : Option ValveState) (hv : v ≠ some .closed) (ghostCells : IndexBox n) (store : Index n → α) (isOpen : Index n → Bool) (pos : α → Bool) (reflect : α → α) (dir : Fin n) (side : Int) (p : PatchTiles n)
    (data : Index n → α) : ∃ d', plenumJointFill v ghostCells store isOpen pos reflect dir side p data = some d' ∧
      ∀ x, ((∃ t ∈ p.tiles, x ∈ t.toSet) ∧ x ∈ ghostCells.toSet → d' x = store (Function.update (fun _ => 0) dir (x dir))) ∧ (¬ ((∃ t ∈ p.tiles, x ∈ t.toSet) ∧ x ∈ ghostCells.toSet) → d' x = data x) := by
  refine ⟨copyStore store (fun i d => if d = dir then i d else 0) ((ghostCopies p.tiles [ghostCells] fun _ i => i).map Prod.fst) data, by simp only [plenumJointFill, hv, if_false], fun x => ?_⟩
  have hmem : x ∈ (ghostCopies p.tiles [ghostCells] fun _ i => i).map Prod.fst ↔ (∃ t ∈ p.tiles, x ∈ t.toSet) ∧ x ∈ ghostCells.toSet := by
    simp only [ghostCopies, List.mem_flatMap, List.mem_map, List.mem_singleton, exists_eq_left, Prod.exists, Prod.mk.injEq]
    constructor
    · rintro ⟨a, b, ⟨t, ht, i, hi, rfl, rfl⟩, rfl⟩
      rw [mem_forEachIndex, mem_boxAnd] at hi
      exact ⟨⟨t, ht, hi.1⟩, hi.2⟩
    · rintro ⟨⟨t, ht, h1⟩, h2⟩
      exact ⟨x, x, ⟨t, ht, x, (mem_forEachIndex _ _).mpr ((mem_boxAnd _ _ _).mpr ⟨h1, h2⟩), rfl, rfl⟩, rfl⟩
  have hred : (fun d => if d = dir then x d else 0) = Function.update (fun _ => (0 : ℤ)) dir (x dir) := by
    funext d
    by_cases h : d = dir
    · subst h; simp
    · simp [h]
  simp only [copyStore]
  rw [fold_store_all (fun i => store fun d => if d = dir then i d else 0)]
  constructor
  · intro h; rw [if_pos (hmem.mpr h)]; exact congrArg store hred
  · intro h; rw [if_neg (fun hh => h (hmem.mp hh))]

/-- **C193, disagreement.** The ghost cells of the plenum are copied also where the mirror cell of the tube has no positive density: they get what was in the array before anything was stored, whatever it was. -/
theorem plenum_unset {β : Type} (v : Option ValveState) (hv : v ≠ some .closed) (ghostCells : IndexBox n) (pos' : β → Bool) (conv : β → α) (mirror : Index n → β) (u : α) (isOpen : Index n → Bool) (pos : α → Bool) (reflect : α → α)
    (dir : Fin n) (side : Int) (p : PatchTiles n) (data : Index n → α) (x : Index n) (ht : ∃ t ∈ p.tiles, x ∈ t.toSet) (hx : x ∈ ghostCells.toSet) (hm : pos' (mirror (Function.update (fun _ => 0) dir (x dir))) = false) :
    ∃ d', plenumJointFill v ghostCells (updateStore pos' conv mirror fun _ => u) isOpen pos reflect dir side p data = some d' ∧ d' x = u := by
  obtain ⟨d', he, h⟩ := plenum_open v hv ghostCells (updateStore pos' conv mirror fun _ => u) isOpen pos reflect dir side p data
  exact ⟨d', he, by rw [(h x).1 ⟨ht, hx⟩]; simp [updateStore, hm]⟩

/-- **C193.** If every connection of the block leaves the data alone, the block gets its own boundary condition and nothing else; connections of other blocks play no role. -/
theorem wrap_base {D : Type} (base : D → Option D) (conns : List (ℕ × (D → Option D))) (id : ℕ) (h : ∀ c ∈ conns, c.1 = id → ∀ d, c.2 d = some d) (data : D) : wrapFill base conns id data = base data := by
  have hf : ∀ d, conns.foldlM (fun d c => if id = c.1 then c.2 d else some d) d = some d := by
    induction conns with
    | nil => intro d; rfl
    | cons c l ih =>
      intro d
      rw [List.foldlM_cons]
      by_cases hc : id = c.1
      · simp only [hc, if_true, h c List.mem_cons_self hc.symm d]
        rw [← hc]
        exact ih (fun c' hc' => h c' (List.mem_cons_of_mem _ hc')) d
      · simp only [hc, if_false]
        exact ih (fun c' hc' => h c' (List.mem_cons_of_mem _ hc')) d
  unfold wrapFill
  cases hb : base data with
  | none => rfl
  | some d => exact hf d

/-- **C193.** The last connection of the block has the last word: where it writes, neither the boundary condition of the block nor an earlier connection matters. -/
theorem wrap_last {D : Type} (base : D → Option D) (conns rest : List (ℕ × (D → Option D))) (id : ℕ) (f : D → Option D) (hr : ∀ c ∈ rest, c.1 ≠ id) (data d : D) (h : wrapFill base conns id data = some d) :
    wrapFill base (conns ++ (id, f) :: rest) id data = f d := by
  have hrest : ∀ d, rest.foldlM (fun d c => if id = c.1 then c.2 d else some d) d = some d := by
    induction rest with
    | nil => intro d; rfl
    | cons c l ih =>
      intro d
      have hc : ¬ id = c.1 := fun hh => hr c List.mem_cons_self hh.symm
      rw [List.foldlM_cons]
      simp only [hc, if_false]
      exact ih (fun c' hc' => hr c' (List.mem_cons_of_mem _ hc')) d
  unfold wrapFill at h ⊢
  cases hb : base data with
  | none => rw [hb] at h; exact absurd h (by simp)
  | some d0 =>
    rw [hb] at h
    simp only [Option.bind_some] at h ⊢
    rw [List.foldlM_append, h]
    simp only [Option.bind_eq_bind, Option.bind_some, List.foldlM_cons, if_true]
    cases hfd : f d with
    | none => rfl
    | some d1 => exact hrest d1

/-! ### Examples -/

/-- A tube of eight cells with two ghost cells at its upper end. -/
def valveGhost : IndexBox 1 := ⟨fun _ => 8, fun _ => 10⟩

/-- **C193, disagreement.** A valve that is open for fuel changes cells inside of the tube, each time the ghost cells are filled (here the third and the fourth cell are doubled twice). -/
theorem fuel_changes_inside :
    let fill := tubeJointFill (n := 0) (some .openFuel) valveGhost (fun _ => (7 : ℤ)) (fun x => decide (0 < x)) (fun x => 2 * x) ⟨fun _ => 0, fun _ => 8⟩ ⟨fun _ => -2, fun _ => 10⟩
    ((List.range 10).map fun i => fill (fill fun _ => 1) fun _ => (i : ℤ)) = [1, 1, 1, 4, 4, 1, 1, 1, 7, 7] := by
  decide +kernel

/-- **C193, disagreement.** And which cells it changes depends on the patches: if the tube is divided in two, those of the patch at the joint only. -/
theorem fuel_depends_on_patches :
    let fill := fun lo : ℤ => tubeJointFill (n := 0) (some .openFuel) valveGhost (fun _ => (7 : ℤ)) (fun x => decide (0 < x)) (fun x => 2 * x) ⟨fun _ => lo, fun _ => 8⟩ ⟨fun _ => lo - 2, fun _ => 10⟩ fun _ => 1
    let other := tubeJointFill (n := 0) (some .openFuel) valveGhost (fun _ => (7 : ℤ)) (fun x => decide (0 < x)) (fun x => 2 * x) ⟨fun _ => 0, fun _ => 4⟩ ⟨fun _ => -2, fun _ => 6⟩ fun _ => 1
    fill 0 (fun _ => 3) = 2 ∧ other (fun _ => 3) = 1 ∧ fill 4 (fun _ => 4) = 2 := by
  decide +kernel

/-- A plenum of 4 × 2 cells behind the lower end, with two ghost cells there: the hypotheses of `plenum_closed` hold. -/
def valvePatch : PatchTiles 2 := ⟨⟨fun _ => -2, ![6, 4]⟩, [⟨fun _ => -2, ![6, 4]⟩]⟩

example : TilesReach ⟨![-2, 0], ![0, 2]⟩ 0 0 valvePatch.tiles ∧ (∀ t ∈ valvePatch.tiles, ∀ x ∈ t.toSet, x ∈ (⟨![-2, 0], ![0, 2]⟩ : IndexBox 2).toSet → x ∈ valvePatch.fab.toSet ∧ jointMirror ⟨![-2, 0], ![0, 2]⟩ 0 0 x ∈ valvePatch.fab.toSet) := by
  refine ⟨?_, ?_⟩
  · intro t ht
    simp only [valvePatch, List.mem_singleton] at ht
    subst ht
    decide
  · intro t ht x hx hg
    simp only [valvePatch, List.mem_singleton] at ht
    subst ht
    refine ⟨hx, fun d => ?_⟩
    have h1 : ∀ d, (![-2, 0] : Index 2) d ≤ x d ∧ x d < (![0, 2] : Index 2) d := hg
    have a := h1 0
    have b := h1 1
    simp at a b
    fin_cases d <;> simp [jointMirror, valvePatch] <;> omega

end Fub
