import Verif.Model.Ignition
import Mathlib.Data.Rat.Defs
import Mathlib.Algebra.Order.Field.Rat
import Mathlib.Data.List.GetD
import Mathlib.Tactic.FieldSimp
import Mathlib.Tactic.Ring
import Mathlib.Tactic.Linarith
import Mathlib.Tactic.NormNum

/-!
C91 (schedule of triggered ignitions), C92 (shape of an ignition).
-/

namespace Fub
variable {K : Type} [Field K] [LinearOrder K]

/-! ### Schedule -/

/-- The ignitions on one level in a sequence of time steps, given by their times and the measured mole fractions: for each ignition the scheduled and the actual time. -/
def igniteRun (o : IgniteOptions K) (level : ℕ) : (ℕ → K) → List (K × (K × K)) → List (K × K)
  | _, [] => []
  | last, (t, m) :: es =>
    if (igniteStep o last level t m).2 then (nextIgnition o last level, t) :: igniteRun o level (igniteStep o last level t m).1 es
    else igniteRun o level (igniteStep o last level t m).1 es

theorem ignite_step_cases (o : IgniteOptions K) (last : ℕ → K) (level : ℕ) (t : K) (m : K × K) :
    (nextIgnition o last level < t ∧ o.criterium < equivalenceRatio m ∧ igniteStep o last level t m = (Function.update last level (nextIgnition o last level), true)) ∨
    (¬(nextIgnition o last level < t ∧ o.criterium < equivalenceRatio m) ∧ igniteStep o last level t m = (last, false)) := by
  simp only [igniteStep]
  by_cases h1 : nextIgnition o last level < t
  · by_cases h2 : o.criterium < equivalenceRatio m
    · left; simp [h1, h2]
    · right; simp [h1, h2]
  · right; simp [h1]

/-- **C91.** A step ignites exactly if its scheduled time has passed and the measured equivalence ratio exceeds the criterion. Other levels are not affected. -/
theorem ignite_exactly (o : IgniteOptions K) (last : ℕ → K) (level : ℕ) (t : K) (m : K × K) :
    ((igniteStep o last level t m).2 = true ↔ nextIgnition o last level < t ∧ o.criterium < equivalenceRatio m) ∧
    (∀ l, l ≠ level → (igniteStep o last level t m).1 l = last l) ∧
    ((igniteStep o last level t m).2 = false → (igniteStep o last level t m).1 = last) := by
  rcases ignite_step_cases o last level t m with ⟨h1, h2, e⟩ | ⟨h, e⟩
  · rw [e]; exact ⟨by simp [h1, h2], fun l hl => by simp [hl], by simp⟩
  · rw [e]; exact ⟨by simp [h], fun l _ => rfl, fun _ => rfl⟩

variable [IsStrictOrderedRing K]

/-- **C91.** The measured ratio is the equivalence ratio of hydrogen and oxygen, `2 H2 + O2 → 2 H2O`: it is one exactly in the stoichiometric mixture, it exceeds `c` exactly if there is more hydrogen than `c` times what the oxygen burns, and it is zero without oxygen, so that nothing is ignited then. -/
theorem ignite_equivalence (c h o : K) (ho : 0 < o) :
    (equivalenceRatio (h, o) = 1 ↔ h = 2 * o) ∧ (c < equivalenceRatio (h, o) ↔ c * (2 * o) < h) ∧ equivalenceRatio (h, (0 : K)) = 0 := by
  have e : equivalenceRatio (h, o) = h / (2 * o) := by
    have := ho.ne'
    simp only [equivalenceRatio, ne_eq, this, not_false_eq_true, if_true]
    field_simp
  rw [e]
  refine ⟨div_eq_one_iff_eq (by positivity), lt_div_iff₀ (by positivity), by simp [equivalenceRatio]⟩

example : equivalenceRatio ((2 / 3, 1 / 3) : ℚ × ℚ) = 1 ∧ (19 / 20 : ℚ) < equivalenceRatio ((2 / 3, 1 / 3) : ℚ × ℚ) := by
  decide +kernel

/-- Every ignition has its own point of the schedule `first + j * interval` and happens after it, in a step with enough fuel. -/
theorem ignite_run_from (o : IgniteOptions K) (hi : 0 ≤ o.interval) (level : ℕ) (es : List (K × (K × K))) (last : ℕ → K) (hl : last level < o.offset ∨ o.offset ≤ last level)
    (j : ℕ) (hj : j < (igniteRun o level last es).length) :
    ((igniteRun o level last es)[j]).1 = nextIgnition o last level + j * o.interval ∧
    ((igniteRun o level last es)[j]).1 < ((igniteRun o level last es)[j]).2 ∧
    ∃ e ∈ es, e.1 = ((igniteRun o level last es)[j]).2 ∧ o.criterium < equivalenceRatio e.2 := by
  induction es generalizing last j with
  | nil => simp [igniteRun] at hj
  | cons e es ih =>
    obtain ⟨t, m⟩ := e
    rcases ignite_step_cases o last level t m with ⟨h1, h2, e⟩ | ⟨h, e⟩
    · have hrun : igniteRun o level last ((t, m) :: es) = (nextIgnition o last level, t) :: igniteRun o level (Function.update last level (nextIgnition o last level)) es := by
        simp only [igniteRun, e, if_true]
      simp only [hrun] at hj ⊢
      cases j with
      | zero => exact ⟨by simp, by simpa using h1, (t, m), by simp, by simp, h2⟩
      | succ j =>
        have hnext : nextIgnition o (Function.update last level (nextIgnition o last level)) level = nextIgnition o last level + o.interval := by
          have hge : o.offset ≤ nextIgnition o last level := by
            simp only [nextIgnition]; split
            · exact le_rfl
            · rename_i h; exact le_add_of_le_of_nonneg (not_lt.1 h) hi
          conv_lhs => rw [nextIgnition]
          simp [not_lt.2 hge]
        have hj' : j < (igniteRun o level (Function.update last level (nextIgnition o last level)) es).length := by simpa using hj
        obtain ⟨a, b, ev, he, c⟩ := ih _ (lt_or_ge _ _) j hj'
        refine ⟨?_, by simpa using b, ev, by simp [he], by simpa using c⟩
        simp only [List.getElem_cons_succ, a, hnext]
        push_cast; ring
    · have hrun : igniteRun o level last ((t, m) :: es) = igniteRun o level last es := by simp only [igniteRun, e]; simp
      simp only [hrun] at hj ⊢
      obtain ⟨a, b, ev, he, c⟩ := ih _ hl j hj
      exact ⟨a, b, ev, by simp [he], c⟩

/-- **C91.** For a positive offset the `j`-th ignition of a level belongs to the time `offset + j * interval`, happens after this time and only in a step with enough fuel, whatever the times and the
mole fractions of the steps are. -/
theorem ignite_schedule (o : IgniteOptions K) (hi : 0 ≤ o.interval) {tiny : K} (ht : tiny < o.offset) (level : ℕ) (es : List (K × (K × K)))
    (j : ℕ) (hj : j < (igniteRun o level (igniteInit tiny) es).length) :
    ((igniteRun o level (igniteInit tiny) es)[j]).1 = o.offset + j * o.interval ∧
    o.offset + j * o.interval < ((igniteRun o level (igniteInit tiny) es)[j]).2 ∧
    ∃ e ∈ es, e.1 = ((igniteRun o level (igniteInit tiny) es)[j]).2 ∧ o.criterium < equivalenceRatio e.2 := by
  obtain ⟨a, b, c⟩ := ignite_run_from o hi level es (igniteInit tiny) (lt_or_ge _ _) j hj
  have e : nextIgnition o (igniteInit tiny) level = o.offset := by simp [nextIgnition, igniteInit, ht]
  rw [e] at a
  exact ⟨a, by rw [← a]; exact b, c⟩

/-- **C91.** There are never more ignitions than points of the schedule before the current time: `k` ignitions until `T` need `offset + (k - 1) interval < T`. -/
theorem ignite_count (o : IgniteOptions K) (hi : 0 ≤ o.interval) {tiny : K} (ht : tiny < o.offset) (level : ℕ) (es : List (K × (K × K))) (T : K) (hT : ∀ e ∈ es, e.1 ≤ T)
    (k : ℕ) (hk : (igniteRun o level (igniteInit tiny) es).length = k + 1) : o.offset + k * o.interval < T := by
  obtain ⟨-, b, ev, he, c, -⟩ := ignite_schedule o hi ht level es k (by omega)
  exact b.trans_le (c ▸ hT ev he)

/-- **C91, disagreement.** Two ignitions need not be an interval apart: if fuel arrives late, after `m` missed intervals, every one of the next `m + 1` steps ignites, whatever the distance between the steps is. -/
theorem ignite_catches_up (o : IgniteOptions K) (hi : 0 ≤ o.interval) {tiny : K} (ht : tiny < o.offset) (level : ℕ) (m : ℕ) (es : List (K × (K × K))) (hlen : es.length = m + 1)
    (hes : ∀ e ∈ es, o.offset + m * o.interval < e.1 ∧ o.criterium < equivalenceRatio e.2) :
    (igniteRun o level (igniteInit tiny) es).map Prod.snd = es.map Prod.fst := by
  have main : ∀ (es : List (K × (K × K))) (last : ℕ → K), (∀ e ∈ es, nextIgnition o last level + ((es.length : K) - 1) * o.interval < e.1 ∧ o.criterium < equivalenceRatio e.2) →
      (igniteRun o level last es).map Prod.snd = es.map Prod.fst := by
    intro es
    induction es with
    | nil => intro last _; rfl
    | cons e es ih =>
      intro last h
      obtain ⟨t, mo⟩ := e
      have h0 := h (t, mo) (by simp)
      have hlt : nextIgnition o last level < t := by
        refine lt_of_le_of_lt ?_ h0.1
        have : (0:K) ≤ (((t, mo) :: es).length : K) - 1 := by simp
        exact le_add_of_nonneg_right (mul_nonneg this hi)
      rcases ignite_step_cases o last level t mo with ⟨h1, h2, e⟩ | ⟨hn, e⟩
      · have hnext : nextIgnition o (Function.update last level (nextIgnition o last level)) level = nextIgnition o last level + o.interval := by
          have hge : o.offset ≤ nextIgnition o last level := by
            simp only [nextIgnition]; split
            · exact le_rfl
            · rename_i h; exact le_add_of_le_of_nonneg (not_lt.1 h) hi
          conv_lhs => rw [nextIgnition]
          simp [not_lt.2 hge]
        simp only [igniteRun, e, if_true, List.map_cons, List.cons.injEq, true_and]
        refine ih _ fun ev hev => ?_
        have := h ev (by simp [hev])
        refine ⟨?_, this.2⟩
        rw [hnext]
        have e2 : (((t, mo) :: es).length : K) - 1 = (es.length : K) := by simp
        rw [e2] at this
        have : nextIgnition o last level + o.interval + ((es.length : K) - 1) * o.interval = nextIgnition o last level + (es.length : K) * o.interval := by ring
        rw [this]; exact (h ev (by simp [hev])).1 |> (fun hh => by rwa [e2] at hh)
      · exact absurd ⟨hlt, h0.2⟩ hn
  have e : nextIgnition o (igniteInit tiny) level = o.offset := by simp [nextIgnition, igniteInit, ht]
  refine main es _ fun ev hev => ?_
  rw [e, hlen]
  have := hes ev hev
  refine ⟨?_, this.2⟩
  push_cast
  rw [add_sub_cancel_right]; exact this.1

/-- **C91, disagreement.** With the default offset zero the initial value, a tiny positive number, counts as an ignition: the first ignition belongs to `tiny + interval` and not to the offset, so that no step up to that
time ignites. -/
theorem ignite_offset_zero (o : IgniteOptions K) {tiny : K} (ht : o.offset ≤ tiny) (level : ℕ) (es : List (K × (K × K))) (hes : ∀ e ∈ es, e.1 ≤ tiny + o.interval) :
    nextIgnition o (igniteInit tiny) level = tiny + o.interval ∧ igniteRun o level (igniteInit tiny) es = [] := by
  have e : nextIgnition o (igniteInit tiny) level = tiny + o.interval := by simp [nextIgnition, igniteInit, not_lt.2 ht]
  refine ⟨e, ?_⟩
  induction es with
  | nil => rfl
  | cons ev es ih =>
    obtain ⟨t, m⟩ := ev
    rcases ignite_step_cases o (igniteInit tiny) level t m with ⟨h1, -, -⟩ | ⟨-, e'⟩
    · rw [e] at h1; exact absurd (hes (t, m) (by simp)) (not_le.2 h1)
    · simp only [igniteRun, e']
      simpa using ih fun ev hev => hes ev (by simp [hev])

/-- **C91.** The decision does not depend on how many processes find the measured cell (a cell is also found in the ghost cells of other processes): the ratio of the sums is the ratio of the cell. If no process finds it or there is
no oxygen the ratio is zero. -/
theorem ignite_ranks (m : K × K) (ranks : List (Option (K × K))) (h : ∀ r ∈ ranks, r = none ∨ r = some m) :
    (some m ∈ ranks → equivalenceRatio (gatherMoles ranks) = equivalenceRatio m) ∧ (some m ∉ ranks → equivalenceRatio (gatherMoles ranks) = 0) ∧ (m.2 = 0 → equivalenceRatio (gatherMoles ranks) = 0) := by
  have main : ∀ acc : K × K, ∃ k : ℕ, (0 < k ↔ some m ∈ ranks) ∧
      ranks.foldl (fun acc r => match r with | some m => (acc.1 + m.1, acc.2 + m.2) | none => acc) acc = (acc.1 + k * m.1, acc.2 + k * m.2) := by
    induction ranks with
    | nil => intro acc; exact ⟨0, by simp, by simp⟩
    | cons r ranks ih =>
      intro acc
      have ih := ih (fun r hr => h r (by simp [hr]))
      rcases h r (by simp) with hr | hr
      · subst hr
        obtain ⟨k, hk, e⟩ := ih acc
        exact ⟨k, by simpa using hk, by simpa using e⟩
      · subst hr
        obtain ⟨k, hk, e⟩ := ih (acc.1 + m.1, acc.2 + m.2)
        refine ⟨k + 1, by simp, ?_⟩
        rw [List.foldl_cons]
        simp only at e ⊢
        rw [e]; push_cast; ext <;> simp <;> ring
  obtain ⟨k, hk, e⟩ := main (0, 0)
  have e' : gatherMoles ranks = (k * m.1, k * m.2) := by
    refine Eq.trans ?_ (e.trans (by simp))
    rfl
  refine ⟨fun hm => ?_, fun hm => ?_, fun hm => ?_⟩
  · have hk0 : (k : K) ≠ 0 := by have := hk.2 hm; positivity
    rw [e']
    simp only [equivalenceRatio, ne_eq, mul_eq_zero, hk0, false_or]
    split
    · rename_i h2; field_simp
    · rfl
  · have : k = 0 := by by_contra hne; exact hm (hk.1 (Nat.pos_of_ne_zero hne))
    rw [e', this]; simp [equivalenceRatio]
  · rw [e', hm]; simp [equivalenceRatio]

/-! ### Shape of an ignition -/

/-- **C92.** Cells within the ramp width of the ignition point are heated at least to the roof-shaped profile with its maximum at the ignition point, and never cooled; cells to the left of the ramp are burnt, cells to the right of it kept. -/
theorem ignite_profile (o : IgniteOptions K) (hw : 0 < o.rampWidth) (xI x T : K) :
    (x < xI - o.rampWidth → igniteCell o xI x T = .burn) ∧
    (xI + o.rampWidth ≤ x → igniteCell o xI x T = .keep) ∧
    (xI - o.rampWidth ≤ x → x < xI + o.rampWidth →
      igniteCell o xI x T = .heat (max T (o.temperatureHigh - (o.temperatureHigh - o.temperatureLow) * (|x - xI| / o.rampWidth)))) := by
  refine ⟨fun h => by simp [igniteCell, h], fun h => ?_, fun h1 h2 => ?_⟩
  · have h1 : ¬ x < xI - o.rampWidth := by intro h'; linarith
    have h2 : ¬ x < xI := by intro h'; linarith
    have h3 : ¬ x < xI + o.rampWidth := not_lt.2 h
    simp [igniteCell, h1, h2, h3]
  · have h1' : ¬ x < xI - o.rampWidth := not_lt.2 h1
    by_cases hx : x < xI
    · have ha : |x - xI| = xI - x := by rw [abs_of_neg (by linarith)]; ring
      simp only [igniteCell, h1', if_false, h1, hx, and_self, if_true, ha]
      congr 2; ring
    · have ha : |x - xI| = x - xI := abs_of_nonneg (by linarith)
      have hx' := not_lt.1 hx
      simp only [igniteCell, h1', if_false, hx, and_false, hx', h2, and_self, if_true, ha]
      congr 2; ring

/-- **C92.** The heated temperatures lie between the larger of the old and the low temperature and the larger of the old and the high temperature. -/
theorem ignite_profile_range (o : IgniteOptions K) (hw : 0 < o.rampWidth) (hT : o.temperatureLow ≤ o.temperatureHigh) (xI x T T' : K) (h : igniteCell o xI x T = .heat T') :
    max T o.temperatureLow ≤ T' ∧ T' ≤ max T o.temperatureHigh ∧ (x = xI → T' = max T o.temperatureHigh) := by
  obtain ⟨p1, p2, p3⟩ := ignite_profile o hw xI x T
  by_cases h1 : x < xI - o.rampWidth
  · rw [p1 h1] at h; cases h
  by_cases h2 : x < xI + o.rampWidth
  · rw [p3 (not_lt.1 h1) h2] at h
    injection h with h
    have hd0 : 0 ≤ |x - xI| / o.rampWidth := by positivity
    have hd1 : |x - xI| / o.rampWidth ≤ 1 := by
      rw [div_le_one hw, abs_le]; constructor <;> linarith
    have hdT : 0 ≤ o.temperatureHigh - o.temperatureLow := by linarith
    have a1 : (o.temperatureHigh - o.temperatureLow) * (|x - xI| / o.rampWidth) ≤ o.temperatureHigh - o.temperatureLow := mul_le_of_le_one_right hdT hd1
    have a2 := mul_nonneg hdT hd0
    rw [← h]
    refine ⟨max_le_max le_rfl (by linarith), max_le_max le_rfl (by linarith), fun hx => ?_⟩
    rw [hx]; simp
  · rw [p2 (not_lt.1 h2)] at h; cases h

/-- **C92.** The ignition point is at least one cell width inside of the domain if the domain has two cells, and it is the given position whenever this is possible. -/
theorem ignite_point {position lo hi dx : K} (h : lo + dx ≤ hi - dx) :
    lo + dx ≤ ignitePoint position lo hi dx ∧ ignitePoint position lo hi dx ≤ hi - dx ∧ (lo + dx ≤ position → position ≤ hi - dx → ignitePoint position lo hi dx = position) := by
  refine ⟨le_max_left _ _, max_le h (min_le_right _ _), fun h1 h2 => ?_⟩
  rw [ignitePoint, min_eq_left h2, max_eq_right h1]

/-! ### Concrete cases -/

/-- Options with offset 1 and interval 2: with fuel from the start ignitions follow the schedule, with fuel from time 10 on five ignitions follow in five steps of size 1/10. -/
example : let o : IgniteOptions ℚ := ⟨1, 19 / 20, 300, 2000, 1 / 20, 0, 1, 2⟩
    igniteRun o 0 (igniteInit (1 / 1000000)) [(1 / 2, (2, 1)), (3 / 2, (2, 1)), (2, (2, 1)), (7 / 2, (2, 1))] = [(1, 3 / 2), (3, 7 / 2)] ∧
    (igniteRun o 0 (igniteInit (1 / 1000000)) [(101 / 10, (2, 1)), (102 / 10, (2, 1)), (103 / 10, (2, 1)), (104 / 10, (2, 1)), (105 / 10, (2, 1)), (106 / 10, (2, 1))]).length = 5 := by
  decide +kernel

example : let o : IgniteOptions ℚ := ⟨1, 19 / 20, 300, 2000, 1 / 20, 0, 1, 2⟩
    igniteCell o 1 1 300 = .heat 2000 ∧ igniteCell o 1 (41 / 40) 300 = .heat 1150 ∧ igniteCell o 1 (1 / 2) 300 = .burn ∧ igniteCell o 1 2 300 = .keep := by
  decide +kernel

end Fub
