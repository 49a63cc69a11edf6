import Verif.Model.Output
import Mathlib.Tactic.Linarith
import Mathlib.Tactic.Ring
import Mathlib.Tactic.Positivity
import Mathlib.Tactic.FieldSimp

namespace Fub
variable {K : Type} [Field K] [LinearOrder K] [IsStrictOrderedRing K] [FloorRing K]

/-- For non-negative times and positive intervals `fmod` is the distance to the previous multiple. -/
theorem fmod_eq {t I : K} (ht : 0 ≤ t) (hI : 0 < I) : fmod t I = some (t - I * ⌊t / I⌋) := by
  unfold fmod
  rw [if_neg hI.ne', if_pos ht, abs_of_pos hI]

theorem fmod_bounds {t I m : K} (hI : 0 < I) (h : fmod t I = some m) : m < I := by
  unfold fmod at h
  rw [if_neg hI.ne', abs_of_pos hI] at h
  split at h
  · simp at h
    have h1 : t / I < ⌊t / I⌋ + 1 := Int.lt_floor_add_one _
    rw [div_lt_iff₀ hI] at h1
    subst h
    nlinarith
  · simp at h
    have h1 : (⌊-t / I⌋ : K) ≤ -t / I := Int.floor_le _
    rw [le_div_iff₀ hI] at h1
    subst h
    nlinarith

/-- The fold of `NextOutputTime` computes a lower bound of all candidates and is one of them. -/
theorem FreqOrInterval.fold_spec (f : FreqOrInterval K) (t : K) (Is : List K) (acc : Option K) :
    (∀ a, acc = some a → ∃ u, Is.foldl (f.nextStep t) acc = some u ∧ u ≤ a) ∧
    (∀ I ∈ Is, 0 < I → ∀ m, fmod t I = some m →
      ∃ u, Is.foldl (f.nextStep t) acc = some u ∧ u ≤ t + ((I - m) + f.epsS)) ∧
    (∀ u, Is.foldl (f.nextStep t) acc = some u → acc = some u ∨
      ∃ I ∈ Is, 0 < I ∧ ∃ m, fmod t I = some m ∧ u = t + ((I - m) + f.epsS)) := by
  induction Is generalizing acc with
  | nil =>
    refine ⟨fun a h => ⟨a, h, le_refl _⟩, by simp, fun u h => Or.inl h⟩
  | cons I Is ih =>
    have key : (¬ 0 < I ∧ f.nextStep t acc I = acc) ∨ (0 < I ∧ ∃ m, fmod t I = some m ∧
        f.nextStep t acc I = some (match acc with
          | none => t + ((I - m) + f.epsS) | some a => min a (t + ((I - m) + f.epsS)))) := by
      unfold FreqOrInterval.nextStep
      split
      · rename_i hp
        cases hm : fmod t I with
        | none => unfold fmod at hm; rw [if_neg hp.ne'] at hm; split at hm <;> simp at hm
        | some m => right; refine ⟨hp, m, rfl, rfl⟩
      · rename_i hp; left; exact ⟨hp, rfl⟩
    obtain ⟨ih1, ih2, ih3⟩ := ih (f.nextStep t acc I)
    refine ⟨?_, ?_, ?_⟩
    · intro a ha
      rw [List.foldl_cons]
      rcases key with ⟨_, hk⟩ | ⟨_, m, _, hk⟩
      · exact ih1 a (by rw [hk, ha])
      · subst ha
        obtain ⟨u, hu, hle⟩ := ih1 _ hk
        exact ⟨u, hu, hle.trans (min_le_left _ _)⟩
    · intro J hJ hpos m hm
      rw [List.foldl_cons]
      rcases List.mem_cons.1 hJ with rfl | hJ
      · rcases key with ⟨hn, _⟩ | ⟨_, m', hm', hk⟩
        · exact absurd hpos hn
        · rw [hm] at hm'; cases hm'
          obtain ⟨u, hu, hle⟩ := ih1 _ hk
          refine ⟨u, hu, hle.trans ?_⟩
          cases acc with
          | none => exact le_refl _
          | some a => exact min_le_right _ _
      · exact ih2 J hJ hpos m hm
    · intro u hu
      rw [List.foldl_cons] at hu
      rcases ih3 u hu with h | ⟨J, hJ, hp, m, hm, he⟩
      · rcases key with ⟨_, hk⟩ | ⟨hp, m, hm, hk⟩
        · left; rw [← hk, h]
        · rw [hk] at h
          cases acc with
          | none => right; refine ⟨I, by simp, hp, m, hm, by simpa using h.symm⟩
          | some a =>
            simp only [Option.some.injEq] at h
            rcases min_choice a (t + ((I - m) + f.epsS)) with h' | h'
            · left; rw [← h, h']
            · right; refine ⟨I, by simp, hp, m, hm, by rw [← h, h']⟩
      · right; exact ⟨J, by simp [hJ], hp, m, hm, he⟩

/-- The next output time lies at least `epsS` in the future. -/
theorem FreqOrInterval.next_ge (f : FreqOrInterval K) {t u : K} (h : f.nextOutputTime t = some u) :
    t + f.epsS < u := by
  rcases (f.fold_spec t f.intervals none).2.2 u h with h | ⟨I, _, hp, m, hm, rfl⟩
  · simp at h
  · have := fmod_bounds hp hm; linarith

/-- The next output time is at most `epsS` after the next multiple of any of the intervals. -/
theorem FreqOrInterval.next_le (f : FreqOrInterval K) {t I : K} (hI : I ∈ f.intervals) (hp : 0 < I) (ht : 0 ≤ t) :
    ∃ u, f.nextOutputTime t = some u ∧ u ≤ (⌊t / I⌋ + 1) * I + f.epsS := by
  obtain ⟨u, hu, hle⟩ := (f.fold_spec t f.intervals none).2.1 I hI hp _ (fmod_eq ht hp)
  exact ⟨u, hu, hle.trans (le_of_eq (by ring))⟩

theorem FreqOrInterval.shall_of_near (f : FreqOrInterval K) {cycle : Int} {t I : K} (hI : I ∈ f.intervals)
    (hp : 0 < I) (ht : 0 ≤ t) (hfr : ∀ q ∈ f.frequencies, q ≠ 0) (h : t - I * ⌊t / I⌋ < 2 * f.epsS) :
    f.shallOutputNow cycle t = some true := by
  have hany : f.intervals.any (f.intervalHit t) = true := by
    rw [List.any_eq_true]
    refine ⟨I, hI, ?_⟩
    unfold FreqOrInterval.intervalHit
    rw [fmod_eq ht hp]
    have h0 : (⌊t / I⌋ : K) ≤ t / I := Int.floor_le _
    rw [le_div_iff₀ hp] at h0
    simp only [decide_eq_true_eq]
    rwa [abs_of_nonneg (by linarith)]
  have hf : ∀ l : List Int, (∀ q ∈ l, q ≠ 0) → anyFrequency cycle l ≠ none := by
    intro l
    induction l with
    | nil => simp [anyFrequency]
    | cons q l ih =>
      intro hq
      unfold anyFrequency
      rw [if_neg (hq q (by simp))]
      split
      · simp
      · exact ih (fun x hx => hq x (by simp [hx]))
  unfold FreqOrInterval.shallOutputNow
  cases hc : anyFrequency cycle f.frequencies with
  | none => exact absurd hc (hf _ hfr)
  | some b => cases b <;> simp [hany]

end Fub
