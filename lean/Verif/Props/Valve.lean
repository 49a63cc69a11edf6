import Verif.Spec.Valve
import Mathlib.Tactic.Linarith
import Mathlib.Data.List.Induction
import Mathlib.Tactic.Ring
import Mathlib.Tactic.NormNum

/-!
# C40, C57: pressure valves
-/

namespace Fub
variable {K : Type*} [Field K] [LinearOrder K] [IsStrictOrderedRing K]

theorem valveStates_head (o : ValveOptions K) (v : Valve K) (h : List (K × K)) : ∃ r, valveStates o v h = v.state :: r := by
  cases h <;> exact ⟨_, rfl⟩

theorem fuelStarts_cons (o : ValveOptions K) (v : Valve K) (e : K × K) (h : List (K × K)) :
    fuelStarts (valveStates o v (e :: h)) =
      (if v.state = .openAir ∧ (changeState o v e.1 e.2).state = .openFuel then 1 else 0) + fuelStarts (valveStates o (changeState o v e.1 e.2) h) := by
  obtain ⟨r, hr⟩ := valveStates_head o (changeState o v e.1 e.2) h
  simp only [valveStates, hr, fuelStarts]

/-- **C40 (transitions).** Every evaluation leaves the valve open; a closed valve opens with air; a valve open for fuel goes back to air if and only if the
mean pressure exceeds the threshold; the recorded fuel time changes only when the valve changes from air to fuel. -/
theorem valve_transitions (o : ValveOptions K) (v : Valve K) (t p : K) :
    (changeState o v t p).state ≠ .closed ∧
    (v.state = .closed → (changeState o v t p).state = .openAir) ∧
    (v.state = .openFuel → ((changeState o v t p).state = .openAir ↔ o.closePressure < p)) ∧
    (¬(v.state = .openAir ∧ (changeState o v t p).state = .openFuel) → (changeState o v t p).lastFuel = v.lastFuel) := by
  obtain ⟨s, l⟩ := v
  cases s
  · simp only [changeState]; split_ifs <;> simp
  · simp only [changeState]; split_ifs <;> simp_all
  · simp [changeState]

theorem valve_air (o : ValveOptions K) (v : Valve K) (t p : K) (h : v.state = .openAir) :
    let next := if v.lastFuel < 0 then o.offset else v.lastFuel + o.interval
    ((changeState o v t p).state = .openFuel ↔ next < t) ∧ (next < t → (changeState o v t p).lastFuel = next) := by
  obtain ⟨s, l⟩ := v
  simp only at h
  subst h
  simp only [changeState]
  split_ifs <;> simp_all

theorem lastFuel_started (o : ValveOptions K) (hi : 0 ≤ o.interval) (h : List (K × K)) :
    ∀ v : Valve K, 0 ≤ v.lastFuel → (valveAfter o v h).lastFuel = v.lastFuel + fuelStarts (valveStates o v h) * o.interval := by
  induction h with
  | nil => intro v _; simp [valveAfter, valveStates, fuelStarts]
  | cons e es ih =>
    intro v hv
    rw [fuelStarts_cons]
    show (valveAfter o (changeState o v e.1 e.2) es).lastFuel = _
    by_cases hc : v.state = .openAir ∧ (changeState o v e.1 e.2).state = .openFuel
    · obtain ⟨h1, h2⟩ := valve_air o v e.1 e.2 hc.1
      have h3 := h2 (h1.1 hc.2)
      rw [if_neg (not_lt.2 hv)] at h3
      rw [ih _ (by rw [h3]; linarith), h3, if_pos hc]
      push_cast; ring
    · have h3 := (valve_transitions o v e.1 e.2).2.2.2 hc
      rw [ih _ (by rw [h3]; exact hv), h3, if_neg hc]
      push_cast; ring

/-- **C40 (recorded times).** For every history of evaluations of a new valve with non-negative offset and interval: before the first fuel phase the
recorded time is the initial one, and after `k + 1` fuel phases have started it is exactly `offset + k * interval`, however late the evaluations were. -/
theorem valve_schedule (o : ValveOptions K) (ho : 0 ≤ o.offset) (hi : 0 ≤ o.interval) (h : List (K × K)) (v : Valve K) (hl : v.lastFuel < 0) :
    (fuelStarts (valveStates o v h) = 0 → (valveAfter o v h).lastFuel = v.lastFuel) ∧
    ∀ k, fuelStarts (valveStates o v h) = k + 1 → (valveAfter o v h).lastFuel = scheduledFuel o k := by
  induction h generalizing v with
  | nil => simp [valveAfter, valveStates, fuelStarts]
  | cons e es ih =>
    rw [fuelStarts_cons]
    show (_ → (valveAfter o (changeState o v e.1 e.2) es).lastFuel = _) ∧ ∀ k, _ → (valveAfter o (changeState o v e.1 e.2) es).lastFuel = _
    by_cases hc : v.state = .openAir ∧ (changeState o v e.1 e.2).state = .openFuel
    · obtain ⟨h1, h2⟩ := valve_air o v e.1 e.2 hc.1
      have h3 := h2 (h1.1 hc.2)
      rw [if_pos hl] at h3
      rw [if_pos hc]
      refine ⟨fun h => by omega, fun k hk => ?_⟩
      have hk' : fuelStarts (valveStates o (changeState o v e.1 e.2) es) = k := by omega
      rw [lastFuel_started o hi es _ (by rw [h3]; exact ho), h3, hk']
      rfl
    · have h3 := (valve_transitions o v e.1 e.2).2.2.2 hc
      rw [if_neg hc, Nat.zero_add]
      have := ih (changeState o v e.1 e.2) (by rw [h3]; exact hl)
      rw [h3] at this
      exact this

/-- **C40 (when a fuel phase starts).** A new valve that is open for air after a history with `k` fuel phases starts the next one at an evaluation at time `t`
if and only if the scheduled time `offset + k * interval` lies strictly before `t`. -/
theorem valve_fuel_start (o : ValveOptions K) (ho : 0 ≤ o.offset) (hi : 0 ≤ o.interval) (h : List (K × K)) (v : Valve K) (hl : v.lastFuel < 0)
    (hair : (valveAfter o v h).state = .openAir) (t p : K) :
    (valveAfter o v (h ++ [(t, p)])).state = .openFuel ↔ scheduledFuel o (fuelStarts (valveStates o v h)) < t := by
  have e : valveAfter o v (h ++ [(t, p)]) = changeState o (valveAfter o v h) t p := by simp [valveAfter]
  obtain ⟨h0, h1⟩ := valve_schedule o ho hi h v hl
  rw [e, (valve_air o _ t p hair).1]
  rcases hk : fuelStarts (valveStates o v h) with _ | k
  · rw [h0 hk, if_pos hl]; simp [scheduledFuel]
  · have hn : 0 ≤ scheduledFuel o k := by
      unfold scheduledFuel
      have : (0 : K) ≤ k := Nat.cast_nonneg k
      positivity
    rw [h1 k hk, if_neg (not_lt.2 hn)]
    unfold scheduledFuel
    push_cast
    rw [show o.offset + (k : K) * o.interval + o.interval = o.offset + ((k : K) + 1) * o.interval by ring]

/-- **C40 fails for a negative offset.** Then the interval is never used: every fuel phase is scheduled, and recorded, at the offset itself, so that the
valve goes back to fuel at the first evaluation after each return to air. -/
theorem valve_negative_offset (o : ValveOptions K) (ho : o.offset < 0) (h : List (K × K)) (v : Valve K) (hl : v.lastFuel < 0) :
    (valveAfter o v h).lastFuel < 0 ∧
    ((valveAfter o v h).state = .openAir → ∀ t p, (valveAfter o v (h ++ [(t, p)])).state = .openFuel ↔ o.offset < t) := by
  have key : ∀ h : List (K × K), ∀ v : Valve K, v.lastFuel < 0 → (valveAfter o v h).lastFuel < 0 := by
    intro h
    induction h with
    | nil => intro v hv; exact hv
    | cons e es ih =>
      intro v hv
      refine ih (changeState o v e.1 e.2) ?_
      by_cases hc : v.state = .openAir ∧ (changeState o v e.1 e.2).state = .openFuel
      · obtain ⟨h1, h2⟩ := valve_air o v e.1 e.2 hc.1
        rw [h2 (h1.1 hc.2), if_pos hv]; exact ho
      · rw [(valve_transitions o v e.1 e.2).2.2.2 hc]; exact hv
  refine ⟨key h v hl, fun hair t p => ?_⟩
  have e : valveAfter o v (h ++ [(t, p)]) = changeState o (valveAfter o v h) t p := by simp [valveAfter]
  rw [e, (valve_air o _ t p hair).1, if_pos (key h v hl)]

/-- A history with two fuel phases: air until time 1, fuel, high pressure at time 3, late second fuel phase at time 9 although it was due after 3. -/
example : let o : ValveOptions ℚ := ⟨10, 2, 1⟩
    let h : List (ℚ × ℚ) := [(1 / 2, 1), (1, 1), (2, 1), (3, 11), (4, 12)]
    fuelStarts (valveStates o (Valve.initial (-1000)) h) = 2 ∧ (valveAfter o (Valve.initial (-1000)) h).lastFuel = 3 ∧
    (valveAfter o (Valve.initial (-1000)) h).state = .openFuel ∧ (valveAfter o (Valve.initial (-1000)) (h.take 4)).state = .openAir ∧ (0 : ℚ) ≤ o.offset ∧ (0 : ℚ) ≤ o.interval := by
  decide +kernel

/-! ## Generic valves -/

theorem fle_iff (e : ValveEvent K) : fleOpt e.inner e.plenum.pressure = true ↔ e.low := by
  rcases h : e.inner with _ | p <;> simp [fleOpt, ValveEvent.low, h]

theorem fgt_low (e : ValveEvent K) (hn : e.inner.isSome) : fgtOpt e.inner e.plenum.pressure = true ↔ ¬e.low := by
  rcases h : e.inner with _ | p
  · simp [h] at hn
  · simp [fgtOpt, ValveEvent.low, h]

theorem fgt_moderate (e : ValveEvent K) (hn : e.inner.isSome) : fgtOpt e.inner (11 / 10 * e.plenum.pressure) = true ↔ ¬e.moderate := by
  rcases h : e.inner with _ | p
  · simp [h] at hn
  · simp [fgtOpt, ValveEvent.moderate, h]

theorem low_moderate (e : ValveEvent K) (hp : 0 ≤ e.plenum.pressure) (h : e.low) : e.moderate := by
  obtain ⟨p, h1, h2⟩ := h
  exact ⟨p, h1, by linarith⟩

theorem isBlocked_iff (k : ValveKind) (e : ValveEvent K) (he : e.Ok k) : isBlocked k e.inner e.plenum = true ↔ e.Blocked k := by
  cases k
  · exact fgt_low e he.1
  · exact fgt_low e he.1
  · simp [isBlocked, ValveEvent.Blocked]
  · simp only [isBlocked, ValveEvent.Blocked]
    cases hs : e.plenum.sec
    · simp
    · simpa using fgt_low e he.1

/-- One evaluation of a valve: the wall iff the valve is blocked; otherwise the inflow function gets the time since the recorded opening time, which is the old
one or the current time. -/
theorem generic_valve_step (k : ValveKind) (t : Option K) (e : ValveEvent K) (he : e.Ok k) :
    ∃ t' a, genericValveFill k t e.inner e.plenum e.time = some (t', a) ∧ t' = changeTOpened k t e.inner e.plenum e.time ∧
      (t' = none ∨ t' = t ∨ t' = some e.time) ∧
      (e.Blocked k → a = .wall) ∧ (¬e.Blocked k → ∃ t0, t' = some t0 ∧ a = .inflow (e.time - t0)) := by
  have hb := isBlocked_iff k e he
  have h3 : changeTOpened k t e.inner e.plenum e.time = none ∨ changeTOpened k t e.inner e.plenum e.time = t ∨
      changeTOpened k t e.inner e.plenum e.time = some e.time := by
    cases k <;> simp only [changeTOpened] <;> (try split_ifs) <;> simp
  by_cases hbl : e.Blocked k
  · refine ⟨_, .wall, ?_, rfl, h3, fun _ => rfl, fun h => absurd hbl h⟩
    simp only [genericValveFill, hb.2 hbl, if_true]
  · have hs : ∃ t0, changeTOpened k t e.inner e.plenum e.time = some t0 := by
      cases k
      · have hl : e.low := not_not.1 hbl
        have h1 := (fle_iff e).2 hl
        have h2 : fgtOpt e.inner (11 / 10 * e.plenum.pressure) = false := by
          rw [Bool.eq_false_iff]; intro h
          exact (fgt_moderate e he.1).1 h (low_moderate e (he.2 rfl) hl)
        cases t <;> simp [changeTOpened, h1, h2]
      · have hl : e.low := not_not.1 hbl
        have h1 := (fle_iff e).2 hl
        have h2 : fgtOpt e.inner e.plenum.pressure = false := by
          rw [Bool.eq_false_iff]; intro h
          exact (fgt_low e he.1).1 h hl
        cases t <;> simp [changeTOpened, h1, h2]
      · exact ⟨_, rfl⟩
      · simp only [ValveEvent.Blocked, not_and, not_not] at hbl
        cases hsec : e.plenum.sec
        · exact ⟨e.time, by simp [changeTOpened, hsec]⟩
        · have hl := hbl hsec
          have h1 := (fle_iff e).2 hl
          have h2 : fgtOpt e.inner e.plenum.pressure = false := by
            rw [Bool.eq_false_iff]; intro h
            exact (fgt_low e he.1).1 h hl
          cases t <;> simp [changeTOpened, hsec, h1, h2]
    obtain ⟨t0, ht0⟩ := hs
    refine ⟨_, .inflow (e.time - t0), ?_, rfl, h3, fun h => absurd h hbl, fun _ => ⟨t0, ht0, rfl⟩⟩
    have : isBlocked k e.inner e.plenum = false := by rw [Bool.eq_false_iff]; exact fun h => hbl (hb.1 h)
    simp only [genericValveFill, this, ht0]
    rfl

/-- **C57 (no failed assertion, elapsed time).** For each of the four valves and every history whose inner pressures are numbers (and whose compressor
pressures are not negative, for the valve with hysteresis): no assertion fails; each evaluation uses the wall exactly if the valve is blocked; and
for non-decreasing evaluation times the inflow function always gets a non-negative elapsed time. -/
theorem generic_valve_run (k : ValveKind) (h : List (ValveEvent K)) (hok : ∀ e ∈ h, e.Ok k) (t : Option K)
    (hmono : h.Pairwise (fun a b => a.time ≤ b.time)) (ht : ∀ t0, t = some t0 → ∀ e ∈ h, t0 ≤ e.time) :
    ∃ t' as, genericValveRun k t h = some (t', as) ∧
      List.Forall₂ (fun e a => (e.Blocked k → a = .wall) ∧ (¬e.Blocked k → ∃ d, a = .inflow d ∧ 0 ≤ d)) h as := by
  induction h generalizing t with
  | nil => exact ⟨t, [], rfl, .nil⟩
  | cons e es ih =>
    obtain ⟨t', a, h1, -, h3, h4, h5⟩ := generic_valve_step k t e (hok e (by simp))
    have hm := List.pairwise_cons.1 hmono
    have ht' : ∀ t0, t' = some t0 → t0 ≤ e.time ∧ ∀ x ∈ es, t0 ≤ x.time := by
      intro t0 h0
      rcases h3 with h | h | h
      · simp [h] at h0
      · rw [h] at h0
        exact ⟨ht t0 h0 e (by simp), fun x hx => ht t0 h0 x (by simp [hx])⟩
      · rw [h] at h0
        cases h0
        exact ⟨le_refl _, fun x hx => hm.1 x hx⟩
    obtain ⟨t'', as, hr, hf⟩ := ih (fun e he => hok e (by simp [he])) t' hm.2 (fun t0 h0 => (ht' t0 h0).2)
    refine ⟨t'', a :: as, by simp [genericValveRun, h1, hr], .cons ⟨h4, fun hb => ?_⟩ hf⟩
    obtain ⟨t0, h6, h7⟩ := h5 hb
    exact ⟨_, h7, sub_nonneg.2 (ht' t0 h6).1⟩

theorem openedAfter_run (k : ValveKind) (h : List (ValveEvent K)) (hok : ∀ e ∈ h, e.Ok k) :
    ∀ t, ∃ as, genericValveRun k t h = some (openedAfter k t h, as) := by
  induction h with
  | nil => exact fun t => ⟨[], rfl⟩
  | cons e es ih =>
    intro t
    obtain ⟨t', a, h1, h2, -⟩ := generic_valve_step k t e (hok e (by simp))
    obtain ⟨as, hr⟩ := ih (fun e he => hok e (by simp [he])) t'
    refine ⟨a :: as, ?_⟩
    simp only [genericValveRun, h1, hr, openedAfter, List.foldl_cons, ← h2]

/-- **C57 (opening time, Klein's valve).** After every history of a new valve the opening time it reports is set if and only if the last pressure was low,
and then it is the time of the first evaluation of the current low pressure phase. -/
theorem klein_opened (h : List (ValveEvent K)) (hok : ∀ e ∈ h, e.Ok .klein) :
    (∀ t, openedAfter .klein none h = some t ↔ LowSince h t) ∧
    (openedAfter .klein none h = none ↔ ∀ e, h.getLast? = some e → ¬e.low) := by
  have uniq : ∀ (h : List (ValveEvent K)), (∃ t, LowSince h t) → ∃ e, h.getLast? = some e ∧ e.low := by
    rintro h ⟨t, h1, e, h2, rfl, -, hl, hall, -⟩
    rcases List.eq_nil_or_concat h2 with rfl | ⟨l, b, rfl⟩
    · exact ⟨e, by simp, hl⟩
    · exact ⟨b, by rw [show h1 ++ e :: l.concat b = (h1 ++ e :: l) ++ [b] by simp, List.getLast?_concat], hall b (by simp)⟩
  have main : (∀ t, openedAfter .klein none h = some t → LowSince h t) ∧ (openedAfter .klein none h = none → ∀ e, h.getLast? = some e → ¬e.low) := by
    induction h using List.reverseRecOn with
    | nil => simp [openedAfter]
    | append_singleton h e ih =>
      obtain ⟨ih1, ih2⟩ := ih (fun x hx => hok x (by simp [hx]))
      have hstep : openedAfter .klein none (h ++ [e]) = changeTOpened .klein (openedAfter .klein none h) e.inner e.plenum e.time := by simp [openedAfter]
      rw [hstep]
      have heok := (hok e (by simp)).1
      by_cases hl : e.low
      · have h1 := (fle_iff e).2 hl
        have h2 : fgtOpt e.inner e.plenum.pressure = false := by
          rw [Bool.eq_false_iff]; exact fun h' => (fgt_low e heok).1 h' hl
        rcases ho : openedAfter .klein none h with _ | t0
        · simp only [changeTOpened, Option.isNone_none, h1, Bool.and_self, if_true]
          refine ⟨fun t ht => ?_, by simp⟩
          cases ht
          exact ⟨h, e, [], by simp, rfl, hl, by simp, ih2 ho⟩
        · simp only [changeTOpened, Option.isNone_some, Bool.false_and, h2]
          refine ⟨fun t ht => ?_, by simp⟩
          simp at ht; subst ht
          obtain ⟨a, x, b, rfl, hx, hxl, hb, ha⟩ := ih1 t0 ho
          refine ⟨a, x, b ++ [e], by simp, hx, hxl, ?_, ha⟩
          intro y hy
          rcases List.mem_append.1 hy with h' | h'
          · exact hb y h'
          · rw [List.mem_singleton.1 h']; exact hl
      · have h1 : fleOpt e.inner e.plenum.pressure = false := by rw [Bool.eq_false_iff]; exact fun h' => hl ((fle_iff e).1 h')
        have h2 := (fgt_low e heok).2 hl
        simp only [changeTOpened, h1, h2, Bool.and_false, if_true]
        refine ⟨by simp, fun _ x hx => ?_⟩
        simp at hx; subst hx; exact hl
  have key : ∀ (a b : List (ValveEvent K)) (x y : ValveEvent K) (a' b' : List (ValveEvent K)), a ++ x :: b = a' ++ y :: b' → x.low → y.low → (∀ z ∈ b, z.low) → (∀ z ∈ b', z.low) →
      (∀ z, a.getLast? = some z → ¬z.low) → (∀ z, a'.getLast? = some z → ¬z.low) → x = y := by
    intro a b x y a' b' he hx hy hb hb' ha ha'
    rcases List.append_eq_append_iff.1 he with ⟨c, rfl, h2⟩ | ⟨c, rfl, h2⟩
    · rcases List.eq_nil_or_concat c with rfl | ⟨l, w, rfl⟩
      · simpa using (List.cons.inj h2).1
      · exfalso
        refine ha' w (by simp) ?_
        have : w ∈ x :: b := by rw [h2]; simp
        rcases List.mem_cons.1 this with rfl | h
        · exact hx
        · exact hb w h
    · rcases List.eq_nil_or_concat c with rfl | ⟨l, w, rfl⟩
      · simpa using (List.cons.inj h2).1.symm
      · exfalso
        refine ha w (by simp) ?_
        have : w ∈ y :: b' := by rw [h2]; simp
        rcases List.mem_cons.1 this with rfl | h
        · exact hy
        · exact hb' w h
  refine ⟨fun t => ⟨main.1 t, fun hls => ?_⟩, ⟨main.2, fun hn => ?_⟩⟩
  · rcases ho : openedAfter .klein none h with _ | t0
    · obtain ⟨e, h1, h2⟩ := uniq h ⟨t, hls⟩
      exact absurd h2 (main.2 ho e h1)
    · obtain ⟨a, x, b, he, hx, hxl, hb, ha⟩ := main.1 t0 ho
      obtain ⟨a', x', b', he', hx', hxl', hb', ha'⟩ := hls
      have := key a b x x' a' b' (by rw [← he, ← he']) hxl hxl' hb hb' ha ha'
      rw [← hx, ← hx', this]
  · rcases ho : openedAfter .klein none h with _ | t0
    · rfl
    · obtain ⟨e, h1, h2⟩ := uniq h ⟨t0, main.1 t0 ho⟩
      exact absurd h2 (hn e h1)

/-- **C57 (opening time, valve with hysteresis).** After every history of a new valve, the reported opening time is that of the first low pressure after the
last pressure above 1.1 times the compressor pressure; it is not set if there was no low pressure since then. In particular the valve does
not forget its opening time when it is blocked by a pressure between one and 1.1 times the compressor pressure. -/
theorem reduced_model_opened (h : List (ValveEvent K)) (hok : ∀ e ∈ h, e.Ok .reducedModelDemo) :
    (∀ t, openedAfter .reducedModelDemo none h = some t → LowSinceHysteresis h t) ∧
    (openedAfter .reducedModelDemo none h = none → ∃ h₀ h₁, h = h₀ ++ h₁ ∧ (∀ x ∈ h₁, x.moderate ∧ ¬x.low) ∧ ∀ x, h₀.getLast? = some x → ¬x.moderate) := by
  induction h using List.reverseRecOn with
  | nil => exact ⟨by simp [openedAfter], fun _ => ⟨[], [], by simp⟩⟩
  | append_singleton h e ih =>
    obtain ⟨ih1, ih2⟩ := ih (fun x hx => hok x (by simp [hx]))
    have hstep : openedAfter .reducedModelDemo none (h ++ [e]) = changeTOpened .reducedModelDemo (openedAfter .reducedModelDemo none h) e.inner e.plenum e.time := by
      simp [openedAfter]
    rw [hstep]
    have heok := (hok e (by simp)).1
    have hpos := (hok e (by simp)).2 rfl
    by_cases hm : e.moderate
    · have h2 : fgtOpt e.inner (11 / 10 * e.plenum.pressure) = false := by
        rw [Bool.eq_false_iff]; exact fun h' => (fgt_moderate e heok).1 h' hm
      rcases ho : openedAfter .reducedModelDemo none h with _ | t0
      · by_cases hl : e.low
        · have h1 := (fle_iff e).2 hl
          simp only [changeTOpened, Option.isNone_none, h1, Bool.and_self, if_true]
          refine ⟨fun t ht => ?_, by simp⟩
          cases ht
          obtain ⟨h0, h1, rfl, ha, hb⟩ := ih2 ho
          exact ⟨h0, h1, e, [], rfl, rfl, hl, by simp, ha, hb⟩
        · have h1 : fleOpt e.inner e.plenum.pressure = false := by rw [Bool.eq_false_iff]; exact fun h' => hl ((fle_iff e).1 h')
          simp only [changeTOpened, Option.isNone_none, h1, h2, Bool.and_false, Bool.false_eq_true, if_false]
          refine ⟨by simp, fun _ => ?_⟩
          obtain ⟨h0, h1, rfl, ha, hb⟩ := ih2 ho
          refine ⟨h0, h1 ++ [e], by simp, fun x hx => ?_, hb⟩
          rcases List.mem_append.1 hx with h' | h'
          · exact ha x h'
          · rw [List.mem_singleton.1 h']; exact ⟨hm, hl⟩
      · simp only [changeTOpened, Option.isNone_some, Bool.false_and, h2, Bool.false_eq_true, if_false]
        refine ⟨fun t ht => ?_, by simp⟩
        simp at ht; subst ht
        obtain ⟨h0, h1, x, b, rfl, hx, hxl, hb, ha, hz⟩ := ih1 t0 ho
        refine ⟨h0, h1, x, b ++ [e], by simp, hx, hxl, ?_, ha, hz⟩
        intro y hy
        rcases List.mem_append.1 hy with h' | h'
        · exact hb y h'
        · rw [List.mem_singleton.1 h']; exact hm
    · have hl : ¬e.low := fun h' => hm (low_moderate e hpos h')
      have h1 : fleOpt e.inner e.plenum.pressure = false := by rw [Bool.eq_false_iff]; exact fun h' => hl ((fle_iff e).1 h')
      have h2 := (fgt_moderate e heok).2 hm
      simp only [changeTOpened, h1, h2, Bool.and_false, Bool.false_eq_true, if_false, if_true]
      refine ⟨by simp, fun _ => ⟨h ++ [e], [], by simp, by simp, ?_⟩⟩
      intro x hx
      simp at hx; subst hx; exact hm

/-- **C57 (deflagration).** The deflagration valve, and the switching valve before the switch, are never blocked and always report the current time:
the elapsed time is zero at every evaluation, whatever the pressures are, even if they are not numbers. -/
theorem deflagration_valve (k : ValveKind) (t : Option K) (e : ValveEvent K) (hk : k = .deflagration ∨ (k = .switchToSec ∧ e.plenum.sec = false)) :
    genericValveFill k t e.inner e.plenum e.time = some (some e.time, .inflow 0) := by
  rcases hk with rfl | ⟨rfl, h⟩
  · simp [genericValveFill, changeTOpened, isBlocked]
  · simp [genericValveFill, changeTOpened, isBlocked, h]

/-- **C57 fails without its hypotheses.** A pressure that is not a number makes the assertion fail for a valve that has not opened yet, and a negative
compressor pressure makes it fail for the valve with hysteresis. -/
theorem generic_valve_assertion_fails :
    (∀ k : ValveKind, ∀ (p : K) (time : K), k ≠ .deflagration → genericValveFill k none none ⟨p, true⟩ time = none) ∧
    (∀ (p time t0 : K), p < 0 → genericValveFill .reducedModelDemo (some t0) (some p) ⟨p, true⟩ time = none) := by
  refine ⟨fun k p time hk => ?_, fun p time t0 hp => ?_⟩
  · cases k <;> simp_all [genericValveFill, changeTOpened, isBlocked, fleOpt, fgtOpt]
  · have : 11 / 10 * p < p := by linarith
    simp [genericValveFill, changeTOpened, isBlocked, fleOpt, fgtOpt, this]

/-- A history that opens at time 1, is blocked at time 2 with a pressure within the hysteresis, and is open again at time 3: Klein's valve restarts its clock,
the valve with hysteresis does not. -/
example : let h : List (ValveEvent ℚ) := [⟨0, some 3, ⟨1, true⟩⟩, ⟨1, some (1 / 2), ⟨1, true⟩⟩, ⟨2, some (21 / 20), ⟨1, true⟩⟩, ⟨3, some 1, ⟨1, true⟩⟩]
    (∀ k, ∀ e ∈ h, e.Ok k) ∧ h.Pairwise (fun a b => a.time ≤ b.time) ∧ openedAfter .klein none h = some 3 ∧ openedAfter .reducedModelDemo none h = some 1 := by
  intro h
  refine ⟨fun k e he => ?_, ?_, by decide +kernel, by decide +kernel⟩
  · simp [h] at he
    rcases he with rfl | rfl | rfl | rfl <;> simp [ValveEvent.Ok]
  · simp [h]; norm_num

end Fub
