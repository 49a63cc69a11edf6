import Verif.Lemmas.Output
import Mathlib.Algebra.Order.Ring.Rat
import Mathlib.Data.Rat.Floor
import Mathlib.Tactic.NormNum
import Mathlib.Data.List.Basic

/-!
# Properties of the output schedules (C07, C08)
-/

namespace Fub

section
variable {K G : Type} [LinearOrder K]

/-- **C07 (next output time).** The combined next output time is the least of the members' next output times; it is
absent iff no (non-null) member has one. -/
theorem multiNext_spec (ms : List (Option (Member K G))) (t : K) :
    (∀ u, multiNext ms t = some u ↔
      (∃ m, some m ∈ ms ∧ m.next t = some u) ∧ ∀ m v, some m ∈ ms → m.next t = some v → u ≤ v) ∧
    (multiNext ms t = none ↔ ∀ m, some m ∈ ms → m.next t = none) := by
  -- generalised over the accumulator of the fold
  have gen : ∀ (ms : List (Option (Member K G))) (acc : Option K),
      (∀ u, ms.foldl (multiNextStep t) acc = some u ↔
        (acc = some u ∨ ∃ m, some m ∈ ms ∧ m.next t = some u) ∧
          (∀ a, acc = some a → u ≤ a) ∧ ∀ m v, some m ∈ ms → m.next t = some v → u ≤ v) := by
    intro ms
    induction ms with
    | nil =>
      intro acc u
      simp only [List.foldl_nil, List.not_mem_nil, false_and, exists_false, or_false, false_implies, implies_true,
        and_true]
      constructor
      · rintro rfl; simp
      · exact fun h => h.1
    | cons m ms ih =>
      intro acc u
      rw [List.foldl_cons, ih]
      cases m with
      | none => simp [multiNextStep]
      | some m =>
        simp only [List.mem_cons, Option.some.injEq, multiNextStep]
        cases hn : m.next t with
        | none =>
          have hmin : minDur acc none = acc := by cases acc <;> rfl
          simp only [hmin]
          constructor
          · rintro ⟨h1, h2, h3⟩
            refine ⟨?_, h2, ?_⟩
            · rcases h1 with h1 | ⟨m', h1, h4⟩
              · exact Or.inl h1
              · exact Or.inr ⟨m', Or.inr h1, h4⟩
            · rintro m' v (rfl | hm) hv
              · rw [hn] at hv; cases hv
              · exact h3 m' v hm hv
          · rintro ⟨h1, h2, h3⟩
            refine ⟨?_, h2, fun m' v hm hv => h3 m' v (Or.inr hm) hv⟩
            rcases h1 with h1 | ⟨m', rfl | h1, h4⟩
            · exact Or.inl h1
            · rw [hn] at h4; cases h4
            · exact Or.inr ⟨m', h1, h4⟩
        | some x =>
          have key : ∀ u, minDur acc (some x) = some u ↔
              (acc = some u ∨ x = u) ∧ (∀ a, acc = some a → u ≤ a) ∧ u ≤ x := by
            intro u
            cases acc with
            | none => simp [minDur]; rintro rfl; exact le_refl _
            | some a =>
              simp only [minDur, Option.some.injEq]
              constructor
              · rintro rfl
                refine ⟨?_, ?_, min_le_right _ _⟩
                · rcases min_choice a x with h | h <;> simp [h]
                · rintro b rfl; exact min_le_left _ _
              · rintro ⟨rfl | rfl, h2, h3⟩
                · exact min_eq_left h3
                · exact min_eq_right (h2 a rfl)
          have bound : ∀ a, minDur acc (some x) = some a → ∀ u, u ≤ a ↔ (∀ b, acc = some b → u ≤ b) ∧ u ≤ x := by
            intro a ha u
            cases acc with
            | none => simp [minDur] at ha; subst ha; simp
            | some b => simp [minDur] at ha; subst ha; simp
          obtain ⟨a0, ha0⟩ : ∃ a, minDur acc (some x) = some a := by
            cases acc <;> exact ⟨_, rfl⟩
          constructor
          · rintro ⟨h1, h2, h3⟩
            have hb := (bound a0 ha0 u).1 (h2 a0 ha0)
            refine ⟨?_, hb.1, ?_⟩
            · rcases h1 with h1 | ⟨m', h1, h4⟩
              · rcases ((key u).1 h1).1 with h | h
                · exact Or.inl h
                · exact Or.inr ⟨m, Or.inl rfl, by rw [hn, h]⟩
              · exact Or.inr ⟨m', Or.inr h1, h4⟩
            · rintro m' v (rfl | hm) hv
              · rw [hn] at hv; cases hv; exact hb.2
              · exact h3 m' v hm hv
          · rintro ⟨h1, h2, h3⟩
            have hux : u ≤ x := h3 m x (Or.inl rfl) hn
            refine ⟨?_, ?_, fun m' v hm hv => h3 m' v (Or.inr hm) hv⟩
            · rcases h1 with h1 | ⟨m', rfl | h1, h4⟩
              · exact Or.inl ((key u).2 ⟨Or.inl h1, h2, hux⟩)
              · rw [hn] at h4; cases h4
                exact Or.inl ((key u).2 ⟨Or.inr rfl, h2, hux⟩)
              · exact Or.inr ⟨m', h1, h4⟩
            · intro a ha
              exact (bound a ha u).2 ⟨h2, hux⟩
  have h1 : ∀ u, multiNext ms t = some u ↔
      (∃ m, some m ∈ ms ∧ m.next t = some u) ∧ ∀ m v, some m ∈ ms → m.next t = some v → u ≤ v := by
    intro u
    unfold multiNext
    rw [gen ms none u]
    simp
  refine ⟨h1, ?_⟩
  constructor
  · intro hnone m hm
    by_contra hcon
    -- some member has a next output time: the fold stays `some`
    have stays : ∀ (ms : List (Option (Member K G))) (acc : Option K),
        ms.foldl (multiNextStep t) acc = none →
        acc = none ∧ ∀ m, some m ∈ ms → m.next t = none := by
      intro ms
      induction ms with
      | nil => intro acc h; exact ⟨h, by simp⟩
      | cons m' ms ih =>
        intro acc h
        rw [List.foldl_cons] at h
        obtain ⟨h1, h2⟩ := ih _ h
        cases m' with
        | none => exact ⟨h1, by simpa using h2⟩
        | some m' =>
          simp only [multiNextStep] at h1
          cases acc with
          | none =>
            refine ⟨rfl, ?_⟩
            intro m'' hm''
            rcases List.mem_cons.1 hm'' with h | h
            · cases h; simpa [minDur] using h1
            · exact h2 m'' h
          | some a => cases hx : m'.next t <;> rw [hx] at h1 <;> simp [minDur] at h1
    exact hcon ((stays ms none hnone).2 m hm)
  · intro h
    cases hx : multiNext ms t with
    | none => rfl
    | some u =>
      obtain ⟨⟨m, hm, hu⟩, _⟩ := (h1 u).1 hx
      rw [h m hm] at hu; cases hu

omit [LinearOrder K] in
/-- **C07 (decision).** The combination wants output exactly when some non-null member does. -/
theorem multiShall_iff (ms : List (Option (Member K G))) (g : G) :
    multiShall ms g = true ↔ ∃ m, some m ∈ ms ∧ m.shall g = true := by
  unfold multiShall
  rw [List.any_eq_true]
  constructor
  · rintro ⟨m, hm, h⟩
    cases m with
    | none => simp at h
    | some m => exact ⟨m, hm, h⟩
  · rintro ⟨m, hm, h⟩; exact ⟨some m, hm, h⟩

omit [LinearOrder K] in
/-- **C07 (invocation).** Exactly the non-null members that want output are invoked, once each and in registration
order. -/
theorem multiInvoked_spec (ms : List (Option (Member K G))) (g : G) :
    (multiInvoked ms g).Pairwise (· < ·) ∧
    ∀ i, i ∈ multiInvoked ms g ↔ ∃ m, ms[i]? = some (some m) ∧ m.shall g = true := by
  have gen : ∀ (ms : List (Option (Member K G))) (j : Nat),
      (multiInvoked.go g j ms).Pairwise (· < ·) ∧
      ∀ i, i ∈ multiInvoked.go g j ms ↔ ∃ m, j ≤ i ∧ ms[i - j]? = some (some m) ∧ m.shall g = true := by
    intro ms
    induction ms with
    | nil => intro j; simp [multiInvoked.go]
    | cons m ms ih =>
      intro j
      obtain ⟨ih1, ih2⟩ := ih (j + 1)
      have hstep : ∀ i, (∃ m, j + 1 ≤ i ∧ ms[i - (j + 1)]? = some (some m) ∧ m.shall g = true) ↔
          (∃ m', i ≠ j ∧ j ≤ i ∧ (m :: ms)[i - j]? = some (some m') ∧ m'.shall g = true) := by
        intro i
        constructor
        · rintro ⟨m', h1, h2, h3⟩
          refine ⟨m', by omega, by omega, ?_, h3⟩
          have : i - j = (i - (j + 1)) + 1 := by omega
          rw [this]; simpa using h2
        · rintro ⟨m', h1, h2, h3, h4⟩
          refine ⟨m', by omega, ?_, h4⟩
          have : i - j = (i - (j + 1)) + 1 := by omega
          rw [this] at h3; simpa using h3
      have hgt : ∀ i ∈ multiInvoked.go g (j + 1) ms, j < i := fun i hi => by
        obtain ⟨_, h, _⟩ := (ih2 i).1 hi; omega
      cases m with
      | none =>
        refine ⟨ih1, fun i => ?_⟩
        change i ∈ multiInvoked.go g (j + 1) ms ↔ _
        rw [ih2, hstep]
        constructor
        · rintro ⟨m', _, h⟩; exact ⟨m', h⟩
        · rintro ⟨m', h1, h2, h3⟩
          refine ⟨m', ?_, h1, h2, h3⟩
          rintro rfl; simp at h2
      | some m =>
        unfold multiInvoked.go
        split
        · rename_i hs
          refine ⟨List.pairwise_cons.2 ⟨hgt, ih1⟩, fun i => ?_⟩
          rw [List.mem_cons, ih2, hstep]
          constructor
          · rintro (rfl | ⟨m', _, h⟩)
            · exact ⟨m, le_refl _, by simp, hs⟩
            · exact ⟨m', h⟩
          · rintro ⟨m', h1, h2, h3⟩
            by_cases hij : i = j
            · exact Or.inl hij
            · exact Or.inr ⟨m', hij, h1, h2, h3⟩
        · rename_i hs
          refine ⟨ih1, fun i => ?_⟩
          rw [ih2, hstep]
          constructor
          · rintro ⟨m', _, h⟩; exact ⟨m', h⟩
          · rintro ⟨m', h1, h2, h3⟩
            refine ⟨m', ?_, h1, h2, h3⟩
            rintro rfl
            simp at h2; subst h2; exact hs h3
  obtain ⟨h1, h2⟩ := gen ms 0
  refine ⟨h1, fun i => ?_⟩
  rw [show multiInvoked ms g = multiInvoked.go g 0 ms from rfl, h2]
  simp

/-- Three members (one null): next times 5 and 3; only the last one wants output. -/
example :
    let ms : List (Option (Member Nat Nat)) := [some ⟨fun _ => some 5, fun _ => false⟩, none, some ⟨fun _ => some 3, fun g => g == 7⟩]
    multiNext ms 0 = some 3 ∧ multiShall ms 7 = true ∧ multiInvoked ms 7 = [2] := by decide

end

/-! ## C08 -/

theorem mapFind_emplace {V : Type} (m : List (String × V)) (k k' : String) (v : V) :
    mapFind (mapEmplace m k v).1 k' =
      (match mapFind m k' with | some x => some x | none => if k' = k then some v else none) := by
  unfold mapEmplace
  cases h : mapFind m k with
  | some x =>
    simp only
    cases h' : mapFind m k' with
    | some y => rfl
    | none =>
      by_cases hk : k' = k
      · subst hk; rw [h] at h'; cases h'
      · simp [hk]
  | none =>
    simp only
    by_cases hk : k' = k
    · subst hk; rw [h]; simp [mapFind]
    · have : mapFind ((k, v) :: m) k' = mapFind m k' := by
        unfold mapFind
        rw [List.find?_cons_of_neg]
        simpa using fun h => hk h.symm
      rw [this]
      cases mapFind m k' <;> simp [hk]

/-- **C08 (first registration wins).** After any sequence of registrations, a name is bound to the factory of the first
registration with that name. -/
theorem register_first_wins {F : Type} (regs : List (String × F)) (name : String) :
    mapFind (registerAll regs) name = (regs.find? (fun r => r.1 == name)).map Prod.snd := by
  have gen : ∀ (regs : List (String × F)) (m : List (String × F)),
      mapFind (regs.foldl (fun m r => (registerOutput m r.1 r.2).1) m) name =
        (match mapFind m name with
          | some x => some x
          | none => (regs.find? (fun r => r.1 == name)).map Prod.snd) := by
    intro regs
    induction regs with
    | nil => intro m; simp; cases mapFind m name <;> rfl
    | cons r regs ih =>
      intro m
      rw [List.foldl_cons, ih]
      unfold registerOutput
      rw [mapFind_emplace]
      cases h : mapFind m name with
      | some x => rfl
      | none =>
        by_cases hk : name = r.1
        · subst hk; simp
        · simp only [hk, if_false]
          rw [List.find?_cons_of_neg]
          simpa using fun h => hk h.symm
  unfold registerAll
  rw [gen]
  rfl

/-- **C08 (unknown names).** `MakeOutput` returns null iff the name was never registered, and otherwise applies the
first registered factory to the given options. -/
theorem makeOutput_spec {F O Opt : Type} (apply : F → Opt → O) (regs : List (String × F)) (name : String) (opts : Opt) :
    (makeOutput apply (registerAll regs) name opts = none ↔ ∀ r ∈ regs, r.1 ≠ name) ∧
    (∀ pre r post, regs = pre ++ r :: post → r.1 = name → (∀ q ∈ pre, q.1 ≠ name) →
      makeOutput apply (registerAll regs) name opts = some (apply r.2 opts)) := by
  unfold makeOutput
  rw [register_first_wins]
  constructor
  · cases h : regs.find? (fun r => r.1 == name) with
    | none =>
      simp only [Option.map_none, true_iff]
      intro r hr
      have := List.find?_eq_none.1 h r hr
      simpa using this
    | some r =>
      simp only [Option.map_some, reduceCtorEq, false_iff, not_forall]
      have h1 := List.find?_some h
      have h2 := List.mem_of_find?_eq_some h
      refine ⟨r, h2, by simpa using h1⟩
  · rintro pre r post rfl hr hpre
    have : (pre ++ r :: post).find? (fun r => r.1 == name) = some r := by
      rw [List.find?_append, List.find?_eq_none.2 (by simpa using hpre)]
      simp [hr]
    rw [this]
    simp

/-- `RegisterOutput` reports success iff the name was not yet registered. -/
theorem registerOutput_result {F : Type} (regs : List (String × F)) (name : String) (f : F) :
    (registerOutput (registerAll regs) name f).2 = true ↔ ∀ r ∈ regs, r.1 ≠ name := by
  have h := (makeOutput_spec (O := F) (Opt := Unit) (fun f _ => f) regs name ()).1
  rw [← h]
  unfold registerOutput mapEmplace makeOutput
  cases mapFind (registerAll regs) name <;> simp

/-- **C08 (defaults).** An output with a type gets the shared frequencies/intervals exactly for those of the two options it
does not set itself; all its other options are unchanged. -/
theorem outputOptions_defaults (fr iv : OptVal) (opts : List (String × OptVal)) (ty : String)
    (hty : mapFind opts "type" = some (.str ty)) :
    ∃ o, outputOptions fr iv opts = some (ty, o) ∧
      ∀ k, mapFind o k = (match mapFind opts k with
        | some v => some v
        | none => if k = "frequencies" then some fr else if k = "intervals" then some iv else none) := by
  refine ⟨_, by unfold outputOptions; rw [hty], fun k => ?_⟩
  simp only [mapFind_emplace]
  cases mapFind opts k with
  | some v => rfl
  | none =>
    by_cases h1 : k = "frequencies"
    · simp [h1]
    · simp [h1]

/-- an output entry that sets its own frequencies but no intervals -/
example : (outputOptions (.ints [1]) (.reals [1/2]) [("type", .str "Plotfile"), ("frequencies", .ints [5])]).map
    (fun p => (p.1, mapFind p.2 "frequencies", mapFind p.2 "intervals")) =
    some ("Plotfile", some (.ints [5]), some (.reals [1/2])) := by decide +kernel

example : makeOutput (fun (f : Nat) (o : Nat) => f + o) (registerAll [("a", 1), ("b", 2), ("a", 3)]) "a" 10 = some 11 ∧
    makeOutput (fun (f : Nat) (o : Nat) => f + o) (registerAll [("a", 1), ("b", 2), ("a", 3)]) "c" 10 = none := by decide +kernel

/-! ## The schedule of a single output -/

section
variable {K : Type} [Field K] [LinearOrder K] [IsStrictOrderedRing K] [FloorRing K]

/-- **C05 (schedule).** For a non-negative time the next output time of a single positive interval `I` is `epsS` after the
smallest multiple of `I` that is larger than the current time. -/
theorem nextOutputTime_single (fr : List Int) (epsS I t : K) (hI : 0 < I) (ht : 0 ≤ t) :
    ∃ k : Int, (FreqOrInterval.mk fr [I] epsS).nextOutputTime t = some (k * I + epsS) ∧
      t < k * I ∧ ∀ j : Int, t < j * I → k ≤ j := by
  refine ⟨⌊t / I⌋ + 1, ?_, ?_, ?_⟩
  · simp only [FreqOrInterval.nextOutputTime, List.foldl_cons, List.foldl_nil, FreqOrInterval.nextStep, if_pos hI,
      fmod_eq ht hI]
    congr 1
    push_cast; ring
  · have := Int.lt_floor_add_one (t / I)
    rw [div_lt_iff₀ hI] at this
    exact_mod_cast this
  · intro j hj
    have : ⌊t / I⌋ < j := by
      rw [Int.floor_lt, div_lt_iff₀ hI]; exact hj
    omega

example : (FreqOrInterval.mk [] [(1/4 : ℚ)] (1/1000)).nextOutputTime (3/5) = some (3/4 + 1/1000) := by
  norm_num [FreqOrInterval.nextOutputTime, FreqOrInterval.nextStep, fmod]
  
end

end Fub
