import Verif.Model.ScratchLevels

/-! # C212: levels made from the initial condition -/

namespace Fub

variable {Tm L D : Type}

/-- The level the hierarchy should have after a call. -/
def freshLevel (init : Nat → Tm → L → D) (l : Nat) (t : Tm) (ly : L) : ScratchLevel Tm L D :=
  { number := l, time := t, cycles := 0, layout := ly, data := some (init l t ly) }

/-- What the last call for level `l` asked for. -/
def lastCall (l : Nat) (calls : List (Nat × Tm × L)) : Option (Tm × L) :=
  (calls.reverse.find? fun c => decide (c.1 = l)).map Prod.snd

/-- No call skips a level: `n` levels exist before the calls. -/
def NoGap : Nat → List (Nat × Tm × L) → Prop
  | _, [] => True
  | n, c :: calls => c.1 ≤ n ∧ NoGap (max n (c.1 + 1)) calls

/-- **C212.** One call: the level is the initial condition on its boxes, all other levels stay, a call that skips a level leaves the
vector of levels. -/
theorem scratch_level_step (init : Nat → Tm → L → D) (h : List (ScratchLevel Tm L D)) (l : Nat) (t : Tm) (ly : L) :
    (l ≤ h.length → ∃ h', makeFromScratch init h l t ly = some h' ∧ h'.length = max h.length (l + 1) ∧
      h'[l]? = some (freshLevel init l t ly) ∧ ∀ j, j ≠ l → h'[j]? = h[j]?) ∧
    (h.length < l → makeFromScratch init h l t ly = none) := by
  constructor
  · intro hl
    by_cases he : h.length = l
    · refine ⟨(h ++ [emptyLevel l t ly]).modify l fun p => { p with data := some (init l t p.layout) },
        by simp [makeFromScratch, he], by simp; omega, ?_, fun j hj => ?_⟩
      · rw [List.getElem?_modify, List.getElem?_append_right (by omega)]
        simp [he, emptyLevel, freshLevel]
      · rw [List.getElem?_modify]
        have hjl : l ≠ j := fun h => hj h.symm
        simp only [hjl, if_false]
        by_cases hlt : j < h.length
        · simp [List.getElem?_append_left hlt]
        · rw [List.getElem?_eq_none (by simp; omega), List.getElem?_eq_none (by omega)]; rfl
    · have hlt : l < h.length := by omega
      refine ⟨(h.set l (emptyLevel l t ly)).modify l fun p => { p with data := some (init l t p.layout) },
        by simp [makeFromScratch, he, hlt], by simp; omega, ?_, fun j hj => ?_⟩
      · rw [List.getElem?_modify, List.getElem?_set_self hlt]
        simp [emptyLevel, freshLevel]
      · have hjl : l ≠ j := fun h => hj h.symm
        rw [List.getElem?_modify, List.getElem?_set_ne hjl]
        simp [hjl]
  · intro hl
    have h1 : ¬ h.length = l := by omega
    have h2 : ¬ l < h.length := by omega
    simp [makeFromScratch, h1, h2]

theorem lastCall_cons (l : Nat) (c : Nat × Tm × L) (calls : List (Nat × Tm × L)) :
    lastCall l (c :: calls) = (lastCall l calls).or (if c.1 = l then some c.2 else none) := by
  simp only [lastCall, List.reverse_cons, List.find?_append]
  cases h : calls.reverse.find? fun c => decide (c.1 = l) with
  | some d => simp
  | none =>
    by_cases hc : c.1 = l
    · simp [hc]
    · simp [hc]

/-- **C212.** After any sequence of calls that skips no level, every level is the initial condition on the boxes and at the time of the
last call for it; levels nobody asked for are those from before. -/
theorem scratch_levels (init : Nat → Tm → L → D) (calls : List (Nat × Tm × L)) :
    ∀ h : List (ScratchLevel Tm L D), NoGap h.length calls → ∃ h', scratchRun init h calls = some h' ∧
      ∀ l, h'[l]? = match lastCall l calls with
        | some (t, ly) => some (freshLevel init l t ly)
        | none => h[l]? := by
  induction calls with
  | nil => intro h _; exact ⟨h, rfl, fun l => by simp [lastCall]⟩
  | cons c calls ih =>
    intro h hg
    obtain ⟨l0, t, ly⟩ := c
    obtain ⟨hle, hrest⟩ := hg
    obtain ⟨h1, e1, e2, e3, e4⟩ := (scratch_level_step init h l0 t ly).1 hle
    obtain ⟨h2, f1, f2⟩ := ih h1 (by rw [e2]; exact hrest)
    refine ⟨h2, by simp only [scratchRun, e1, Option.bind_some]; exact f1, fun l => ?_⟩
    rw [f2 l, lastCall_cons]
    cases hc : lastCall l calls with
    | some d => simp
    | none =>
      by_cases hl : l0 = l
      · subst hl; simp [e3]
      · have : l ≠ l0 := fun h => hl h.symm
        simp [hl, e4 l this]

/-- The calls AMReX makes when the second round of its search moves the boxes of the finer level. -/
example : NoGap (Tm := Nat) (L := Nat) 0 [(0, 0, 10), (1, 0, 11), (1, 0, 12), (2, 0, 13)] ∧
    (scratchRun (fun l _ ly => (l, ly)) [] [(0, 0, 10), (1, 0, 11), (1, 0, 12), (2, (0 : Nat), (13 : Nat))]).map
      (fun h => h.map fun p => (p.layout, p.data)) = some [(10, some (0, 10)), (12, some (1, 12)), (13, some (2, 13))] := by
  refine ⟨?_, by decide⟩
  simp [NoGap]

end Fub
