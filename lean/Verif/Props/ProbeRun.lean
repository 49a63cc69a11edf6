import Verif.Model.ProbeRun
import Verif.Spec.ProbeRun
import Verif.Props.Hdf5File
import Mathlib.Tactic.Ring

/-!
C195: every output appends one row to the probe file of each block.
-/

namespace Fub

section Rows
variable {R : Type}

theorem writeProbes_other (fs : Fs (List R)) (name q : String) (row : R) (h : q ≠ name) : writeProbes fs name row q = fs q := by
  unfold writeProbes
  cases hn : fs name with
  | none => simp [h]
  | some n => cases n <;> simp [h]

theorem writeProbes_rows (fs : Fs (List R)) (name : String) (row : R) (rows : List R) (h : FileRows fs name rows) : FileRows (writeProbes fs name row) name (rows ++ [row]) := by
  unfold FileRows at h ⊢
  rw [if_neg (by simp)]
  unfold writeProbes
  by_cases hr : rows = []
  · rw [if_pos hr] at h; rw [h]; simp [hr]
  · rw [if_neg hr] at h; rw [h]; simp

theorem tubeFile_inj (path : String) (i j : ℕ) (h : tubeFile path i = tubeFile path j) : i = j := by
  unfold tubeFile at h
  have := congrArg String.toList h
  simp only [String.toList_append, List.append_assoc, List.append_cancel_left_eq] at this
  have h2 := List.append_cancel_right this
  exact Nat.repr_injective (String.toList_injective h2)

theorem writeBlocks_other (name : ℕ → String) (q : String) : ∀ (l : List (Option R)) (i : ℕ) (fs : Fs (List R)), (∀ k, i ≤ k → q ≠ name k) → writeBlocks name i l fs q = fs q
  | [], _, _, _ => rfl
  | r :: rest, i, fs, h => by
    unfold writeBlocks
    rw [writeBlocks_other name q rest (i + 1) _ fun k hk => h k (by omega)]
    cases r with
    | none => rfl
    | some row => exact writeProbes_other fs _ q row (h i le_rfl)

/-- Files with different names: block `b` gets its row. -/
theorem writeBlocks_tube (name : ℕ → String) (hn : ∀ i j, name i = name j → i = j) (b : ℕ) : ∀ (l : List (Option R)) (i : ℕ) (fs : Fs (List R)) (rows : List R), i ≤ b →
    FileRows fs (name b) rows → FileRows (writeBlocks name i l fs) (name b) (rows ++ ((l[b - i]?).bind id).toList)
  | [], _, fs, rows, _, h => by simpa [writeBlocks] using h
  | r :: rest, i, fs, rows, hi, h => by
    unfold writeBlocks
    rcases Nat.eq_or_lt_of_le hi with rfl | hlt
    · rw [Nat.sub_self, List.getElem?_cons_zero]
      have hoth : ∀ fs' : Fs (List R), writeBlocks name (i + 1) rest fs' (name i) = fs' (name i) := fun fs' =>
        writeBlocks_other name _ rest (i + 1) fs' fun k hk he => by have := hn _ _ he; omega
      cases r with
      | none => unfold FileRows at h ⊢; rw [hoth]; simpa using h
      | some row =>
        have := writeProbes_rows fs (name i) row rows h
        unfold FileRows at this ⊢
        rw [hoth]; simpa using this
    · have e : b - i = (b - (i + 1)) + 1 := by omega
      rw [e, List.getElem?_cons_succ]
      refine writeBlocks_tube name hn b rest (i + 1) _ rows hlt ?_
      cases r with
      | none => exact h
      | some row =>
        have hb : writeProbes fs (name i) row (name b) = fs (name b) := writeProbes_other fs _ _ row fun he => by have := hn _ _ he; omega
        unfold FileRows at h ⊢
        exact hb.trans h

/-- One file for all blocks: it gets the rows of all of them. -/
theorem writeBlocks_shared (path : String) : ∀ (l : List (Option R)) (i : ℕ) (fs : Fs (List R)) (rows : List R),
    FileRows fs path rows → FileRows (writeBlocks (fun _ => path) i l fs) path (rows ++ l.filterMap id)
  | [], _, fs, rows, h => by simpa [writeBlocks] using h
  | r :: rest, i, fs, rows, h => by
    unfold writeBlocks
    cases r with
    | none => simpa using writeBlocks_shared path rest (i + 1) fs rows h
    | some row =>
      have := writeBlocks_shared path rest (i + 1) _ _ (writeProbes_rows fs path row rows h)
      simpa using this

/-- The run is defined exactly if there is a tube in the options and every output has a plenum; the files of the tubes hold the rows of their tube and the file of the plena those of all plena. -/
theorem probe_run_files (nTubes : ℕ) (hT : nTubes ≠ 0) (tubePath plenumPath : String) (hne : ∀ i, tubeFile tubePath i ≠ plenumPath) :
    ∀ (outs : List (List (Option R) × List (Option R))) (fs : Fs (List R)) (rowsP : List R) (rowsT : ℕ → List R), (∀ o ∈ outs, o.2 ≠ []) →
    FileRows fs plenumPath rowsP → (∀ b, FileRows fs (tubeFile tubePath b) (rowsT b)) →
    ∃ fs', logProbesRun nTubes tubePath plenumPath outs fs = some fs' ∧ FileRows fs' plenumPath (rowsP ++ outs.flatMap fun o => o.2.filterMap id)
      ∧ ∀ b, FileRows fs' (tubeFile tubePath b) (rowsT b ++ outs.flatMap fun o => ((o.1[b]?).bind id).toList)
  | [], fs, rowsP, rowsT, _, hP, hTu => ⟨fs, rfl, by simpa using hP, fun b => by simpa using hTu b⟩
  | o :: outs, fs, rowsP, rowsT, ho, hP, hTu => by
    have hlen : o.2.length ≠ 0 := fun h => ho o List.mem_cons_self (List.length_eq_zero_iff.1 h)
    set fs1 := writeBlocks (tubeFile tubePath) 0 o.1 fs with hfs1
    have hstep : logProbes nTubes tubePath plenumPath o.1 o.2 fs = some (writeBlocks (fun _ => plenumPath) 0 o.2 fs1) := by
      unfold logProbes; simp only [hT, hlen, if_false, hfs1]
    have h1P : FileRows fs1 plenumPath rowsP := by
      unfold FileRows at hP ⊢
      rw [hfs1, writeBlocks_other _ _ _ _ _ fun k _ => (hne k).symm]; exact hP
    have h1T : ∀ b, FileRows fs1 (tubeFile tubePath b) (rowsT b ++ ((o.1[b]?).bind id).toList) := fun b =>
      writeBlocks_tube (tubeFile tubePath) (tubeFile_inj tubePath) b o.1 0 fs (rowsT b) (Nat.zero_le _) (hTu b)
    have h2P := writeBlocks_shared plenumPath o.2 0 fs1 rowsP h1P
    have h2T : ∀ b, FileRows (writeBlocks (fun _ => plenumPath) 0 o.2 fs1) (tubeFile tubePath b) (rowsT b ++ ((o.1[b]?).bind id).toList) := by
      intro b
      have := h1T b
      unfold FileRows at this ⊢
      rw [writeBlocks_other _ _ _ _ _ fun _ _ => hne b]; exact this
    obtain ⟨fs', hrun, hP', hT'⟩ := probe_run_files nTubes hT tubePath plenumPath hne outs _ _ _ (fun x hx => ho x (List.mem_cons_of_mem _ hx)) h2P h2T
    refine ⟨fs', ?_, ?_, fun b => ?_⟩
    · unfold logProbesRun at hrun ⊢
      rw [List.foldlM_cons, hstep]; exact hrun
    · simpa [List.append_assoc] using hP'
    · simpa [List.append_assoc] using hT' b

/-- **C195.** One plenum and any number of tubes, all with probes; no probe files exist. After any sequence of outputs the file of the plenum and the file of each tube have exactly one row for each output, in their order, with the data of their block. -/
theorem probe_rows {nTubes : ℕ} (hT : nTubes ≠ 0) {tubePath plenumPath : String} (hne : ∀ i, tubeFile tubePath i ≠ plenumPath) (fs : Fs (List R))
    (hP : fs plenumPath = none) (hTu : ∀ b, fs (tubeFile tubePath b) = none) (tubes : ℕ) (outs : List ((ℕ → R) × R)) :
    ∃ fs', logProbesRun nTubes tubePath plenumPath (outs.map fun o => ((List.range tubes).map fun b => some (o.1 b), [some o.2])) fs = some fs'
      ∧ FileRows fs' plenumPath (outs.map fun o => o.2)
      ∧ ∀ b, FileRows fs' (tubeFile tubePath b) (if b < tubes then outs.map fun o => o.1 b else []) := by
  obtain ⟨fs', h1, h2, h3⟩ := probe_run_files nTubes hT tubePath plenumPath hne (outs.map fun o => ((List.range tubes).map fun b => some (o.1 b), [some o.2])) fs [] (fun _ => [])
    (by intro o ho; obtain ⟨p, -, rfl⟩ := List.mem_map.1 ho; simp) (by simp [FileRows, hP]) (fun b => by simp [FileRows, hTu b])
  refine ⟨fs', h1, ?_, fun b => ?_⟩
  · have e : (outs.map fun o => ((List.range tubes).map fun b => some (o.1 b), [some o.2])).flatMap (fun o => o.2.filterMap id) = outs.map fun o => o.2 := by
      rw [List.flatMap_map]
      exact (List.map_eq_flatMap).symm
    rw [List.nil_append, e] at h2
    exact h2
  · have h := h3 b
    have e : (outs.map fun o => ((List.range tubes).map fun b => some (o.1 b), [some o.2])).flatMap (fun o => ((o.1[b]?).bind id).toList) = if b < tubes then outs.map fun o => o.1 b else [] := by
      rw [List.flatMap_map]
      by_cases hb : b < tubes
      · rw [if_pos hb]
        rw [List.map_eq_flatMap]
        congr 1
        funext o
        simp [hb]
      · rw [if_neg hb]
        simp [hb]
    rw [List.nil_append, e] at h
    exact h

/-- **C195, disagreement.** All plena write to the same file: with several plena each output adds one row for each of them, so that the number of rows is not the number of outputs. -/
theorem plena_share_file {nTubes : ℕ} (hT : nTubes ≠ 0) {tubePath plenumPath : String} (hne : ∀ i, tubeFile tubePath i ≠ plenumPath) (fs : Fs (List R))
    (hP : fs plenumPath = none) (hTu : ∀ b, fs (tubeFile tubePath b) = none) (plena : ℕ) (hp : plena ≠ 0) (outs : List (ℕ → R)) :
    ∃ fs', logProbesRun nTubes tubePath plenumPath (outs.map fun o => ([], (List.range plena).map fun b => some (o b))) fs = some fs'
      ∧ FileRows fs' plenumPath (outs.flatMap fun o => (List.range plena).map o) := by
  obtain ⟨fs', h1, h2, -⟩ := probe_run_files nTubes hT tubePath plenumPath hne (outs.map fun o => ([], (List.range plena).map fun b => some (o b))) fs [] (fun _ => [])
    (by intro o ho; obtain ⟨p, -, rfl⟩ := List.mem_map.1 ho; simpa using hp) (by simp [FileRows, hP]) (fun b => by simp [FileRows, hTu b])
  refine ⟨fs', h1, ?_⟩
  have e : (outs.map fun o => (([] : List (Option R)), (List.range plena).map fun b => some (o b))).flatMap (fun o => o.2.filterMap id) = outs.flatMap fun o => (List.range plena).map o := by
    rw [List.flatMap_map]
    congr 1
    funext o
    simp [List.filterMap_map]
  rw [List.nil_append, e] at h2
  exact h2

/-- **C195, disagreement.** A grid that consists of tubes only: the output divides by the number of plena. -/
theorem no_plenum_undefined (nTubes : ℕ) (tubePath plenumPath : String) (tubes : List (Option R)) (fs : Fs (List R)) : logProbes nTubes tubePath plenumPath tubes [] fs = none := by
  unfold logProbes; simp

/-- **C195.** The probe file of a cut-cell domain: an old file is moved away when the output is constructed, then every output adds one row. -/
theorem gas_probe_rows {nProbes : ℕ} (hn : nProbes ≠ 0) (path : String) (limit : ℕ) (fs : Fs (List R)) (hfree : ∃ i, 1 ≤ i ∧ i ≤ limit ∧ fs (path ++ ".old." ++ toString i) = none) (rows : List R) :
    ∃ fs', gasProbesRun nProbes path limit rows fs = some fs' ∧ FileRows fs' path rows
      ∧ ∀ n, fs path = some n → ∃ j, 1 ≤ j ∧ fs (path ++ ".old." ++ toString j) = none ∧ fs' (path ++ ".old." ++ toString j) = some n := by
  have key : ∀ (rows : List R) (fs : Fs (List R)) (old : List R), FileRows fs path old →
      ∃ fs', rows.foldlM (fun fs r => gasProbes nProbes path r fs) fs = some fs' ∧ FileRows fs' path (old ++ rows) ∧ ∀ q, q ≠ path → fs' q = fs q := by
    intro rows
    induction rows with
    | nil => intro fs old h; exact ⟨fs, rfl, by simpa using h, fun _ _ => rfl⟩
    | cons r rs ih =>
      intro fs old h
      obtain ⟨fs', h1, h2, h3⟩ := ih (writeProbes fs path r) (old ++ [r]) (writeProbes_rows fs path r old h)
      refine ⟨fs', ?_, by simpa using h2, fun q hq => by rw [h3 q hq, writeProbes_other _ _ _ _ hq]⟩
      rw [List.foldlM_cons]
      have : gasProbes nProbes path r fs = some (writeProbes fs path r) := by unfold gasProbes; rw [if_neg hn]
      rw [this]; exact h1
  obtain ⟨i, hi1, hi2, hi3⟩ := hfree
  cases hp : fs path with
  | none =>
    have e : renameIfExists fs path limit = fs := by unfold renameIfExists; rw [hp]
    obtain ⟨fs', h1, h2, -⟩ := key rows fs [] (by simp [FileRows, hp])
    exact ⟨fs', by unfold gasProbesRun; rw [e]; exact h1, by simpa using h2, fun n hn => by simp at hn⟩
  | some node =>
    obtain ⟨hnone, j, hj1, -, hj3, hj4⟩ := plenum_probe_file_renamed fs path limit i node hp hi1 hi2 hi3
    obtain ⟨fs', h1, h2, h3⟩ := key rows (renameIfExists fs path limit) [] (by simp [FileRows, hnone])
    refine ⟨fs', h1, by simpa using h2, fun n hn => ⟨j, hj1, hj3, ?_⟩⟩
    have hne : path ++ ".old." ++ toString j ≠ path := by
      intro h
      have := congrArg String.length h
      rw [String.length_append, String.length_append] at this
      have h1 : ".old.".length = 5 := rfl
      omega
    rw [h3 _ hne, hj4]; simpa using hn

/-- **C195, disagreement.** Without probes (the default) the output of a cut-cell domain divides by zero. -/
theorem gas_no_probes_undefined (path : String) (row : R) (fs : Fs (List R)) : gasProbes 0 path row fs = none := by
  unfold gasProbes; simp

theorem writeProbes_nonregular (fs : Fs (List R)) (name q : String) (row : R) (h : fs q = some .other) : writeProbes fs name row q = some .other := by
  by_cases hq : q = name
  · subst hq; unfold writeProbes; rw [h]; exact h
  · rw [writeProbes_other _ _ _ _ hq, h]

theorem writeBlocks_nonregular (name : ℕ → String) (q : String) : ∀ (l : List (Option R)) (i : ℕ) (fs : Fs (List R)), fs q = some .other → writeBlocks name i l fs q = some .other
  | [], _, _, h => h
  | r :: rest, i, fs, h => by
    unfold writeBlocks
    refine writeBlocks_nonregular name q rest (i + 1) _ ?_
    cases r with
    | none => exact h
    | some row => exact writeProbes_nonregular fs _ q row h

/-- **C195.** A path that is not a regular file (a directory, a device) is left alone by every run. -/
theorem probe_nonregular (nTubes : ℕ) (tubePath plenumPath q : String) : ∀ (outs : List (List (Option R) × List (Option R))) (fs fs' : Fs (List R)), fs q = some .other →
    logProbesRun nTubes tubePath plenumPath outs fs = some fs' → fs' q = some .other
  | [], fs, fs', h, hr => by cases hr; exact h
  | o :: outs, fs, fs', h, hr => by
    unfold logProbesRun at hr
    rw [List.foldlM_cons] at hr
    cases hs : logProbes nTubes tubePath plenumPath o.1 o.2 fs with
    | none => rw [hs] at hr; cases hr
    | some fs1 =>
      rw [hs] at hr
      refine probe_nonregular nTubes tubePath plenumPath q outs fs1 fs' ?_ hr
      unfold logProbes at hs
      simp only at hs
      split at hs
      · cases hs
      · split at hs
        · cases hs
        · cases hs
          exact writeBlocks_nonregular _ q _ _ _ (writeBlocks_nonregular _ q _ _ _ h)

example : ∃ fs', logProbesRun (R := ℕ) 1 "Tube" "Plenum.h5" [([some 1], [some 3])] (fun q => if q = "Tube_0.h5" then some .other else none) = some fs' ∧ fs' "Tube_0.h5" = some .other :=
  ⟨_, rfl, by decide +kernel⟩

end Rows

section Coordinates
variable {K : Type}

theorem three_div (n m : ℕ) : 3 * n / m / 3 = n / m := by
  rw [Nat.div_div_eq_div_mul, Nat.mul_comm m 3, Nat.mul_div_mul_left _ _ (by omega)]

/-- **C195.** One plenum: the states are gathered at the listed coordinates. -/
theorem plenum_probe_one (xs : List (ℕ → K)) {k d : ℕ} (hd : d < 3) : plenumProbe xs 1 0 k d = wantedPlenumProbe xs 1 0 k d := by
  unfold plenumProbe wantedPlenumProbe
  have h3 : 3 * xs.length / 3 = xs.length := by omega
  simp only [Nat.div_one, h3, Nat.zero_mul, Nat.zero_add]
  by_cases hk : k < xs.length
  · rw [if_pos ⟨hk, hd⟩, if_pos hk]
    unfold plenumFlat
    have h1 : d * xs.length + k < 3 * xs.length := by
      have : d * xs.length ≤ 2 * xs.length := Nat.mul_le_mul_right _ (by omega)
      omega
    have e1 : (d * xs.length + k) % xs.length = k := by rw [Nat.add_comm, Nat.add_mul_mod_self_right, Nat.mod_eq_of_lt hk]
    have e2 : (d * xs.length + k) / xs.length = d := by rw [Nat.add_comm, Nat.add_mul_div_right _ _ (by omega), Nat.div_eq_of_lt hk, Nat.zero_add]
    rw [if_pos h1, e1, e2]
  · rw [if_neg (fun h => hk h.1), if_neg hk]

/-- **C195, disagreement.** Two plena with one probe each at `(1, 2, 3)` and `(4, 5, 6)`: the states are gathered at `(1, 4, 2)` and `(5, 3, 6)`. -/
theorem plenum_probes_scrambled :
    (List.range 3).map (plenumProbe [fun d => ([1, 2, 3] : List ℚ).getD d 0, fun d => ([4, 5, 6] : List ℚ).getD d 0] 2 0 0) = [some 1, some 4, some 2]
      ∧ (List.range 3).map (plenumProbe [fun d => ([1, 2, 3] : List ℚ).getD d 0, fun d => ([4, 5, 6] : List ℚ).getD d 0] 2 1 0) = [some 5, some 3, some 6] := by
  decide +kernel

/-- **C195.** The tubes of the options: the states are gathered at the coordinates that the constructor has stored for the tube (which are those of the first tube, see C113), for every number of tubes and probes. -/
theorem tube_probe_seen [Zero K] (xs : List (ℕ → K)) {nTubes i k d : ℕ} (hi : i < nTubes) (hd : d < 3) :
    tubeProbeSeen xs nTubes i k d = (tubeProbe xs nTubes i k).map fun x => x d := by
  unfold tubeProbeSeen tubeProbe
  simp only [three_div]
  by_cases hk : k < xs.length / nTubes
  · rw [if_pos ⟨hk, hd⟩, if_pos ⟨hi, hk⟩]
    unfold tubeFlat
    generalize xs.length / nTubes = n at hk
    have hlt : d * n + k < 3 * n := by
      have : d * n ≤ 2 * n := Nat.mul_le_mul_right _ (by omega)
      omega
    have h1 : i * (3 * n) + (d * n + k) < nTubes * (3 * n) := by
      have : (i + 1) * (3 * n) ≤ nTubes * (3 * n) := Nat.mul_le_mul_right _ hi
      have e : (i + 1) * (3 * n) = i * (3 * n) + 3 * n := by ring
      omega
    have e0 : (i * (3 * n) + (d * n + k)) % (3 * n) = d * n + k := by
      rw [Nat.add_comm, Nat.add_mul_mod_self_right, Nat.mod_eq_of_lt hlt]
    have e1 : (d * n + k) % n = k := by rw [Nat.add_comm, Nat.add_mul_mod_self_right, Nat.mod_eq_of_lt hk]
    have e2 : (d * n + k) / n = d := by rw [Nat.add_comm, Nat.add_mul_div_right _ _ (by omega), Nat.div_eq_of_lt hk, Nat.zero_add]
    simp only [h1, if_true, e0, e1, e2]
  · rw [if_neg (fun h => hk h.1), if_neg (fun h => hk h.2)]; rfl

/-- **C195, disagreement.** A tube of the grid that the option `n_tubes` does not count (its default is one): its coordinates are read behind the array. -/
theorem tube_probe_outside [Zero K] (x : ℕ → K) (i d : ℕ) (hi : 1 ≤ i) (_hd : d < 3) : tubeProbeSeen [x] 1 i 0 d = none := by
  unfold tubeProbeSeen tubeFlat
  simp only [List.length_singleton, Nat.div_one]
  have h1 : ¬ i * 3 + d < 3 := by omega
  simp [h1]

end Coordinates

/-- Two outputs of a grid with two tubes and a plenum. -/
example : ∃ fs', logProbesRun (R := ℕ) 2 "Tube" "Plenum.h5" [([some 1, some 2], [some 3]), ([some 4, some 5], [some 6])] (fun _ => none) = some fs'
    ∧ fs' "Tube_0.h5" = some (.file [1, 4]) ∧ fs' "Tube_1.h5" = some (.file [2, 5]) ∧ fs' "Plenum.h5" = some (.file [3, 6]) :=
  ⟨_, rfl, by decide +kernel, by decide +kernel, by decide +kernel⟩

example : ∀ i, tubeFile "Tube" i ≠ "Plenum.h5" := by
  intro i h
  have := congrArg String.toList h
  simp [tubeFile] at this

end Fub
