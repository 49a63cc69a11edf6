import Verif.Spec.ControlOutput
import Verif.Props.Hdf5File

/-!
C165: the file with the control states.
-/

namespace Fub

/-- The fields in the order of the map. -/
theorem ctlFieldMap_eq : ctlFieldMap = [
    ("compressor_SEC_Mode", fun s => if s.compressor.secMode then 1 else 0),
    ("compressor_mass_flow_in", fun s => s.compressor.massFlowIn),
    ("compressor_mass_flow_out", fun s => s.compressor.massFlowOut),
    ("compressor_power", fun s => s.compressor.power),
    ("compressor_pressure", fun s => s.compressor.pressure),
    ("compressor_temperature", fun s => s.compressor.temperature),
    ("current_rpm", fun s => s.rpm),
    ("efficiency", fun s => s.efficiency),
    ("fuel_consumption", fun s => s.fuelConsumption),
    ("fuel_consumption_rate", fun s => s.fuelRate),
    ("power_out", fun s => s.powerOut),
    ("turbine_mass_flow_in", fun s => s.turbine.massFlowIn),
    ("turbine_mass_flow_out", fun s => s.turbine.massFlowOut),
    ("turbine_power", fun s => s.turbine.power),
    ("turbine_pressure", fun s => s.turbine.pressure),
    ("turbine_temperature", fun s => s.turbine.temperature)] := by
  rfl

/-- The names of the columns. -/
def ctlNames : List String := ["compressor_SEC_Mode", "compressor_mass_flow_in", "compressor_mass_flow_out", "compressor_power", "compressor_pressure",
  "compressor_temperature", "current_rpm", "efficiency", "fuel_consumption", "fuel_consumption_rate", "power_out", "turbine_mass_flow_in",
  "turbine_mass_flow_out", "turbine_power", "turbine_pressure", "turbine_temperature"]

theorem ctlNames_eq : ctlFieldMap.map Prod.fst = ctlNames := by rw [ctlFieldMap_eq]; rfl

theorem ctlFieldMap_length : ctlFieldMap.length = 16 := by rw [ctlFieldMap_eq]; rfl

/-- The buffer at the position of a name has the quantity with this name. -/
theorem ctlBuffer_get (s : ControlState) (name : String) (h : name ∈ ctlNames) :
    some ((ctlBuffer s).getD (ctlNames.idxOf name) 0) = ctlQuantity s name := by
  unfold ctlBuffer
  rw [ctlFieldMap_eq]
  simp only [ctlNames, List.mem_cons, List.not_mem_nil, or_false] at h
  rcases h with h | h | h | h | h | h | h | h | h | h | h | h | h | h | h | h <;> subst h <;> simp [ctlNames, ctlQuantity]

theorem ctlQuantity_none (s : ControlState) (name : String) (h : name ∉ ctlNames) : ctlQuantity s name = none := by
  simp only [ctlNames, List.mem_cons, List.not_mem_nil, or_false, not_or] at h
  unfold ctlQuantity
  split <;> simp_all

/-- Invariant of the file: the datasets are the rows that were written. -/
def CtlInv (f : CtlFile) (A B C : List CtlOut) : Prop :=
  f.fields = ctlNames ∧ (∃ d, f.data = some d ∧ Slots d [16] (A.map fun o i => (ctlBuffer o.state).getD i 0)) ∧
  (∃ d, f.times = some d ∧ Slots d [] (B.map fun o _ => o.time)) ∧ (∃ d, f.cycles = some d ∧ Slots d [] (C.map fun o _ => o.cycle))

theorem ctlCreate_inv : CtlInv ctlCreate [] [] [] := by
  refine ⟨ctlNames_eq, ⟨_, rfl, ?_, ?_⟩, ⟨_, rfl, ?_, ?_⟩, ⟨_, rfl, ?_, ?_⟩⟩
  · simp [ctlFieldMap_length]
  · intro t x h; simp at h
  · rfl
  · intro t x h; simp at h
  · rfl
  · intro t x h; simp at h

theorem ctlAppend_slots {T : Type} [Zero T] (d : Option (H5Dataset T)) (e : List ℕ) (xs : List (ℕ → T)) (size : ℕ) (mem : ℕ → T)
    (h : ∃ ds, d = some ds ∧ Slots ds e xs) (hs : e.prod ≤ size) :
    ∃ d', ctlAppend d size mem = some d' ∧ ∃ ds, d' = some ds ∧ Slots ds e (xs ++ [mem]) := by
  obtain ⟨ds, rfl, hd⟩ := h
  obtain ⟨ds', ha, hsl⟩ := h5Append_slots ds 0 e xs size mem hd hs
  exact ⟨some ds', by simp [ctlAppend, ha], ds', rfl, hsl⟩

theorem ctlBuffer_length (s : ControlState) : (ctlBuffer s).length = 16 := by simp [ctlBuffer, ctlFieldMap_length]

theorem ctlWrite_inv (f : CtlFile) (A B C : List CtlOut) (o : CtlOut) (s : ℕ) (h : CtlInv f A B C) :
    ∃ f', ctlWrite f o s = some f' ∧ CtlInv f' (A ++ if 0 < s then [o] else []) (B ++ if 1 < s then [o] else []) (C ++ if 2 < s then [o] else []) := by
  obtain ⟨hf, hA, hB, hC⟩ := h
  obtain ⟨dA, hdA, hA'⟩ := ctlAppend_slots f.data [16] _ (ctlBuffer o.state).length (fun i => (ctlBuffer o.state).getD i 0) hA (by simp [ctlBuffer_length])
  obtain ⟨dB, hdB, hB'⟩ := ctlAppend_slots f.times [] _ 1 (fun _ => o.time) hB (by simp)
  obtain ⟨dC, hdC, hC'⟩ := ctlAppend_slots f.cycles [] _ 1 (fun _ => o.cycle) hC (by simp)
  refine ⟨⟨f.fields, if 0 < s then dA else f.data, if 1 < s then dB else f.times, if 2 < s then dC else f.cycles⟩, ?_, hf, ?_, ?_, ?_⟩
  · unfold ctlWrite
    by_cases h0 : 0 < s <;> by_cases h1 : 1 < s <;> by_cases h2 : 2 < s <;> simp only [h0, h1, h2, if_true, if_false, hdA, hdB, hdC] <;> rfl
  · by_cases h0 : 0 < s
    · simpa [h0] using hA'
    · simpa [h0] using hA
  · by_cases h0 : 1 < s
    · simpa [h0] using hB'
    · simpa [h0] using hB
  · by_cases h0 : 2 < s
    · simpa [h0] using hC'
    · simpa [h0] using hC

theorem ctlReached_cons (k : ℕ) (o : CtlOut) (s : ℕ) (h : List (CtlOut × ℕ)) :
    ctlReached k ((o, s) :: h) = (if k < s then [o] else []) ++ ctlReached k h := by
  unfold ctlReached
  by_cases hk : k < s <;> simp [hk]

theorem ctlOutputs_inv (path : String) : ∀ (h : List (CtlOut × ℕ)) (fs : Fs CtlFile) (f : CtlFile) (A B C : List CtlOut), fs path = some (.file f) →
    CtlInv f A B C → ∃ f', ctlOutputs path fs h = some (fun q => if q = path then some (.file f') else fs q) ∧
      CtlInv f' (A ++ ctlReached 0 h) (B ++ ctlReached 1 h) (C ++ ctlReached 2 h)
  | [], fs, f, A, B, C, hp, hi => by
    refine ⟨f, ?_, by simpa [ctlReached] using hi⟩
    simp only [ctlOutputs, Option.some.injEq]
    funext q
    by_cases hq : q = path
    · simp [hq, hp]
    · simp [hq]
  | (o, s) :: rest, fs, f, A, B, C, hp, hi => by
    obtain ⟨f', hw, hi'⟩ := ctlWrite_inv f A B C o s hi
    obtain ⟨f'', hr, hi''⟩ := ctlOutputs_inv path rest (fun q => if q = path then some (.file f') else fs q) f' _ _ _ (by simp) hi'
    refine ⟨f'', ?_, by simpa [ctlReached_cons] using hi''⟩
    simp only [ctlOutputs, ctlOutput, hp, hw, Option.map_some, hr, Option.some.injEq]
    funext q
    by_cases hq : q = path <;> simp [hq]

theorem h5Get_slots {T : Type} (d : H5Dataset T) (e : List ℕ) (xs : List (ℕ → T)) (h : Slots d e xs) (t : ℕ) (idx : List ℕ) (hi : InExtent e idx) :
    h5Get (some d) (t :: idx) = xs[t]?.map fun x => x (rowMajor e idx) := by
  obtain ⟨hd, hv⟩ := h
  simp only [h5Get, Option.bind_some, hd, inExtent_cons, hi, and_true]
  by_cases ht : t < xs.length
  · rw [if_pos ht, List.getElem?_eq_getElem ht, Option.map_some, hv t xs[t] (List.getElem?_eq_getElem ht) idx hi]
  · rw [if_neg ht, List.getElem?_eq_none (by omega)]; rfl

theorem ctlInv_holds (f : CtlFile) (A B C : List CtlOut) (h : CtlInv f A B C) : CtlHolds f A B C := by
  obtain ⟨hf, ⟨dA, hA, sA⟩, ⟨dB, hB, sB⟩, ⟨dC, hC, sC⟩⟩ := h
  refine ⟨?_, ?_, ?_, ?_⟩
  · intro name t
    unfold ctlRead
    rw [hf, hA]
    by_cases hn : name ∈ ctlNames
    · have hlt : ctlNames.idxOf name < 16 := List.idxOf_lt_length_of_mem hn
      rw [if_pos hn, h5Get_slots dA [16] _ sA t [ctlNames.idxOf name] (by simp [inExtent_cons, inExtent_nil, hlt]), List.getElem?_map, Option.map_map]
      cases A[t]? with
      | none => rfl
      | some o => simpa [rowMajor] using ctlBuffer_get o.state name hn
    · rw [if_neg hn]
      cases A[t]? with
      | none => rfl
      | some o => simp [ctlQuantity_none _ _ hn]
  · simp [h5Rows, hA, sA.1]
  · intro t
    rw [hB, h5Get_slots dB [] _ sB t [] inExtent_nil, List.getElem?_map, Option.map_map]
    rfl
  · intro t
    rw [hC, h5Get_slots dC [] _ sC t [] inExtent_nil, List.getElem?_map, Option.map_map]
    rfl

theorem ctlSession_inv (limit : ℕ) (path : String) (fs : Fs CtlFile) (h : List (CtlOut × ℕ)) :
    ∃ f, ctlSession limit path fs h = some (runOnce limit path fs f) ∧ CtlInv f (ctlReached 0 h) (ctlReached 1 h) (ctlReached 2 h) := by
  obtain ⟨f, hr, hi⟩ := ctlOutputs_inv (ctlConstruct fs path limit).2 h (ctlConstruct fs path limit).1 ctlCreate [] [] [] (by simp [ctlConstruct]) ctlCreate_inv
  refine ⟨f, ?_, by simpa using hi⟩
  unfold ctlSession
  dsimp only
  rw [hr, Option.some.injEq]
  funext q
  simp only [runOnce, ctlConstruct]
  by_cases hq : q = (prepareOutput fs path limit).2 <;> simp [hq]

/-- C165: one run of the program. Whatever the file system contains, and whether or not an output is interrupted by a crash, the run writes one file. A reader finds
in row `t` of the column `name` the quantity `name` of the control state of output `t`, with the time and the cycle of the output. The dataset that a crash did not
reach misses the row. No other file is changed by the outputs. -/
theorem control_file_history (limit : ℕ) (path : String) (fs : Fs CtlFile) (h : List (CtlOut × ℕ)) :
    ∃ fs' f, ctlSession limit path fs h = some fs' ∧ fs' (prepareOutput fs path limit).2 = some (.file f) ∧
      CtlHolds f (ctlReached 0 h) (ctlReached 1 h) (ctlReached 2 h) ∧
      ∀ q, q ≠ (prepareOutput fs path limit).2 → fs' q = (prepareOutput fs path limit).1 q := by
  obtain ⟨f, hs, hi⟩ := ctlSession_inv limit path fs h
  refine ⟨_, f, hs, by simp [runOnce], ctlInv_holds _ _ _ _ hi, ?_⟩
  intro q hq
  simp [runOnce, hq]

theorem ctlReached_complete (k : ℕ) (hk : k < 3) (outs : List CtlOut) (rest : List (CtlOut × ℕ)) :
    ctlReached k (outs.map (fun o => (o, 3)) ++ rest) = outs ++ ctlReached k rest := by
  induction outs with
  | nil => simp
  | cons o outs ih => rw [List.map_cons, List.cons_append, ctlReached_cons, ih]; simp [hk]

/-- C165: a run that ends by a crash at any point of the last output. All outputs before are found complete and aligned in the file. -/
theorem control_file_crash (limit : ℕ) (path : String) (fs : Fs CtlFile) (outs : List CtlOut) (last : CtlOut) (steps : ℕ) (hfree : fs path = none) :
    ∃ fs' f, ctlSession limit path fs (outs.map (fun o => (o, 3)) ++ [(last, steps)]) = some fs' ∧ fs' path = some (.file f) ∧
      ∀ t o, outs[t]? = some o → (∀ name, ctlRead f name t = ctlQuantity o.state name) ∧ h5Get f.times [t] = some o.time ∧ h5Get f.cycles [t] = some o.cycle := by
  have hprep : prepareOutput fs path limit = (fs, path) := by simp [prepareOutput, hfree]
  obtain ⟨fs', f, hs, hf, hh, -⟩ := control_file_history limit path fs (outs.map (fun o => (o, 3)) ++ [(last, steps)])
  rw [hprep] at hf
  refine ⟨fs', f, hs, hf, ?_⟩
  rw [ctlReached_complete 0 (by omega), ctlReached_complete 1 (by omega), ctlReached_complete 2 (by omega)] at hh
  intro t o ho
  have hlt := (List.getElem?_eq_some_iff.mp ho).1
  have key : ∀ l : List CtlOut, (outs ++ l)[t]? = some o := fun l => by rw [List.getElem?_append_left hlt, ho]
  exact ⟨fun name => by rw [hh.1 name t, key]; rfl, by rw [hh.2.2.1 t, key]; rfl, by rw [hh.2.2.2 t, key]; rfl⟩

theorem ctlSessions_runs (limit : ℕ) (path : String) : ∀ (hs : List (List (CtlOut × ℕ))) (fs : Fs CtlFile),
    ∃ files : List CtlFile, ctlSessions limit path fs hs = some (files.foldl (runOnce limit path) fs) ∧
      List.Forall₂ (fun f h => CtlHolds f (ctlReached 0 h) (ctlReached 1 h) (ctlReached 2 h)) files hs
  | [], fs => ⟨[], rfl, .nil⟩
  | h :: hs, fs => by
    obtain ⟨f, hr, hi⟩ := ctlSession_inv limit path fs h
    obtain ⟨files, hr', hf⟩ := ctlSessions_runs limit path hs (runOnce limit path fs f)
    exact ⟨f :: files, by simp only [ctlSessions, hr, hr', List.foldl_cons], .cons (ctlInv_holds _ _ _ _ hi) hf⟩

/-- C165: a simulation that is restarted again and again with the same options, each time after a crash at any point or after a regular end. No row is lost: run `i` is
found in the file with the number `i + 1`, the last run in the file with the name of the option. -/
theorem control_restarts_keep_all (limit : ℕ) (path : String) (fs : Fs CtlFile) (hfree : fs path = none) (hn : ∀ i, fs (numbered path i) = none)
    (runs : List (List (CtlOut × ℕ))) (last : List (CtlOut × ℕ)) (hl : runs.length < limit - 1) :
    ∃ fs' f, ctlSessions limit path fs (runs ++ [last]) = some fs' ∧ fs' path = some (.file f) ∧
      CtlHolds f (ctlReached 0 last) (ctlReached 1 last) (ctlReached 2 last) ∧
      ∀ i h, runs[i]? = some h → ∃ g, fs' (numbered path (i + 1)) = some (.file g) ∧ CtlHolds g (ctlReached 0 h) (ctlReached 1 h) (ctlReached 2 h) := by
  obtain ⟨files, hr, hf⟩ := ctlSessions_runs limit path (runs ++ [last]) fs
  obtain ⟨lf, gs, hne, hsplit⟩ : ∃ lf gs, gs.length = runs.length ∧ files = gs ++ [lf] := by
    have hlen := hf.length_eq
    rw [List.length_append, List.length_singleton] at hlen
    rcases List.eq_nil_or_concat files with h | ⟨gs, lf, h⟩
    · rw [h] at hlen; simp at hlen
    · refine ⟨lf, gs, ?_, by simpa using h⟩
      rw [h] at hlen; simpa using hlen
  subst hsplit
  obtain ⟨h1, h2, -⟩ := output_runs_keep_all limit path fs hfree hn gs lf (by omega)
  have hget : ∀ (i : ℕ) (g : CtlFile) (h : List (CtlOut × ℕ)), (gs ++ [lf])[i]? = some g → (runs ++ [last])[i]? = some h →
      CtlHolds g (ctlReached 0 h) (ctlReached 1 h) (ctlReached 2 h) := by
    intro i g h hg hh
    obtain ⟨hi1, rfl⟩ := List.getElem?_eq_some_iff.mp hg
    obtain ⟨hi2, rfl⟩ := List.getElem?_eq_some_iff.mp hh
    exact hf.get hi1 hi2
  refine ⟨_, lf, hr, h1, hget runs.length lf last ?_ ?_, ?_⟩
  · rw [← hne]; simp
  · simp
  · intro i h hi
    have hlt := (List.getElem?_eq_some_iff.mp hi).1
    have hg : gs[i]? = some (gs[i]'(by omega)) := List.getElem?_eq_getElem _
    exact ⟨_, h2 i _ hg, hget i _ h (by rw [List.getElem?_append_left (by omega), hg]) (by rw [List.getElem?_append_left hlt, hi])⟩

/-- C165, limit: if all numbered names are taken, the new run overwrites the file of the run before and its rows are lost. -/
theorem control_names_exhausted (limit : ℕ) (path : String) (fs : Fs CtlFile) (old : CtlFile) (hp : fs path = some (.file old))
    (h : ∀ i, 1 ≤ i → i < limit → fs (numbered path i) ≠ none) (outs : List CtlOut) :
    ∃ fs' f, ctlSession limit path fs (outs.map fun o => (o, 3)) = some fs' ∧ fs' path = some (.file f) ∧ CtlHolds f outs outs outs ∧
      ∀ q, q ≠ path → fs' q = fs q := by
  have hprep := output_names_exhausted fs path limit h
  obtain ⟨fs', f, hs, hf, hh, ho⟩ := control_file_history limit path fs (outs.map fun o => (o, 3))
  rw [hprep] at hf ho
  have hc : ∀ k, k < 3 → ctlReached k (outs.map fun o => (o, 3)) = outs := fun k hk => by
    have := ctlReached_complete k hk outs []
    simpa [ctlReached] using this
  rw [hc 0 (by omega), hc 1 (by omega), hc 2 (by omega)] at hh
  exact ⟨fs', f, hs, hf, hh, ho⟩

/-- A case for the theorems: three runs, the first one crashes between the datasets of its second output. -/
example : let p : PlenumState := ⟨1, 2, 3, 4, 5, true⟩
    let q : PlenumState := ⟨6, 7, 8, 9, 10, false⟩
    let s : ControlState := ⟨100, p, q, 11, 12, 13, 14⟩
    let a : CtlOut := ⟨s, 0, 0⟩
    let b : CtlOut := ⟨{ s with rpm := 200 }, 1, 5⟩
    ∃ fs' f g, ctlSessions 10 "c.h5" (fun _ => none) [[(a, 3), (b, 1)], [], [(b, 3)]] = some fs' ∧ fs' "c.h5" = some (.file f) ∧
      fs' (numbered "c.h5" 1) = some (.file g) ∧ ctlRead f "current_rpm" 0 = some 200 ∧ h5Get f.cycles [0] = some 5 ∧
      ctlRead g "turbine_power" 1 = some 8 ∧ ctlRead g "compressor_SEC_Mode" 0 = some 1 ∧ h5Get g.times [0] = some 0 ∧ h5Get g.times [1] = none ∧
      ctlRead g "turbine_SEC_Mode" 0 = none := by
  intro p q s a b
  obtain ⟨fs', f, h, hf, hh, hr⟩ := control_restarts_keep_all 10 "c.h5" (fun _ => none) rfl (fun _ => rfl) [[(a, 3), (b, 1)], []] [(b, 3)] (by decide)
  obtain ⟨g, hg, hgh⟩ := hr 0 _ rfl
  have e1 : ctlReached 0 [(b, 3)] = [b] := rfl
  have e2 : ctlReached 0 [(a, 3), (b, 1)] = [a, b] := rfl
  have e3 : ctlReached 1 [(a, 3), (b, 1)] = [a] := rfl
  have e4 : ctlReached 2 [(b, 3)] = [b] := rfl
  rw [e2, e3] at hgh
  rw [e1, e4] at hh
  refine ⟨fs', f, g, h, hf, hg, ?_, hh.2.2.2 0, ?_, ?_, hgh.2.2.1 0, hgh.2.2.1 1, ?_⟩
  · rw [hh.1]; rfl
  · rw [hgh.1]; rfl
  · rw [hgh.1]; show some (if true = true then (1 : ℝ) else 0) = some 1; rw [if_pos rfl]
  · rw [hgh.1]; exact ctlQuantity_none s "turbine_SEC_Mode" (by decide +kernel)

/-- A case for `control_names_exhausted`. -/
example : let fs : Fs CtlFile := fun q => if q = "c.h5" ∨ q = numbered "c.h5" 1 then some (.file ctlCreate) else none
    fs "c.h5" = some (.file ctlCreate) ∧ (∀ i, 1 ≤ i → i < 2 → fs (numbered "c.h5" i) ≠ none) := by
  intro fs
  refine ⟨if_pos (Or.inl rfl), ?_⟩
  intro i h1 h2
  obtain rfl : i = 1 := by omega
  have : fs (numbered "c.h5" 1) = some (.file ctlCreate) := if_pos (Or.inr rfl)
  rw [this]
  exact Option.some_ne_none _

end Fub
