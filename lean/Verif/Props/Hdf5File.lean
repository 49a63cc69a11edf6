import Verif.Model.Hdf5File
import Std.Data.String.ToNat
import Mathlib.Data.List.Range
import Mathlib.Data.List.Nodup
import Mathlib.Data.List.Count
import Mathlib.Data.Int.Order.Basic
import Mathlib.Algebra.Order.Field.Basic
import Mathlib.Data.Rat.Defs
import Mathlib.Algebra.Order.Ring.Rat
import Mathlib.Tactic.Ring
import Mathlib.Tactic.Linarith

/-!
C111: histories of the grid files, C112: names of output files, C113: probes and blocks, C114: ownership of HDF5 handles.
-/

namespace Fub

section Grid
variable {K : Type}

/-! ### Specification -/

/-- The dataset consists of exactly the entries `xs` in order; each entry is an array of extents `e` in row major order. -/
def Slots (d : H5Dataset K) (e : List ℕ) (xs : List (ℕ → K)) : Prop :=
  d.dims = xs.length :: e ∧ ∀ t x, xs[t]? = some x → ∀ idx, InExtent e idx → d.val (t :: idx) = x (rowMajor e idx)

theorem inExtent_nil : InExtent [] [] := by simp [InExtent]

theorem inExtent_cons (d i : ℕ) (ds is : List ℕ) : InExtent (d :: ds) (i :: is) ↔ i < d ∧ InExtent ds is := by
  unfold InExtent; simp; tauto

theorem inSlab_cons (o c i : ℕ) (os cs is : List ℕ) : InSlab (o :: os) (c :: cs) (i :: is) ↔ (o ≤ i ∧ i < o + c) ∧ InSlab os cs is := by
  unfold InSlab; simp; tauto

theorem inSlab_nil : InSlab [] [] [] := by simp [InSlab]

theorem inSlab_zero : ∀ (e idx : List ℕ), InSlab (e.map fun _ => 0) e idx ↔ InExtent e idx
  | [], [] => by simp [inSlab_nil, inExtent_nil]
  | [], _ :: _ => by simp [InSlab, InExtent]
  | _ :: _, [] => by simp [InSlab, InExtent]
  | a :: e, i :: idx => by rw [List.map_cons, inSlab_cons, inExtent_cons, inSlab_zero e idx]; simp

theorem zipWith_sub_zero : ∀ (e idx : List ℕ), idx.length = e.length → idx.zipWith (· - ·) (e.map fun _ => 0) = idx
  | [], [], _ => rfl
  | [], _ :: _, h => by simp at h
  | _ :: _, [], h => by simp at h
  | _ :: e, i :: idx, h => by
    have := zipWith_sub_zero e idx (by simpa using h)
    simp only [List.map_cons, List.zipWith_cons_cons, this, Nat.sub_zero]

theorem rowMajor_one (e idx : List ℕ) : rowMajor (1 :: e) (0 :: idx) = rowMajor e idx := by
  simp [rowMajor]

theorem h5Create_slots (fill : K) (e : List ℕ) (size : ℕ) (mem : ℕ → K) (h : e.prod ≤ size) :
    ∃ d, h5Create fill (1 :: e) size mem = some d ∧ Slots d e [mem] := by
  unfold h5Create H5Dataset.writeSlab
  rw [if_pos (by simpa using h)]
  refine ⟨_, rfl, rfl, ?_⟩
  intro t x hx idx hidx
  have ht : t = 0 := by
    by_contra hne
    obtain ⟨m, rfl⟩ := Nat.exists_eq_succ_of_ne_zero hne
    simp at hx
  subst ht
  simp only [List.getElem?_cons_zero, Option.some.injEq] at hx
  subst hx
  have hs : InSlab ((1 :: e).map fun _ => 0) (1 :: e) (0 :: idx) := (inSlab_zero _ _).mpr ((inExtent_cons _ _ _ _).mpr ⟨Nat.one_pos, hidx⟩)
  dsimp only
  rw [if_pos hs, zipWith_sub_zero _ _ (by simpa using hidx.1), rowMajor_one]

theorem h5Append_slots (d : H5Dataset K) (fill : K) (e : List ℕ) (xs : List (ℕ → K)) (size : ℕ) (mem : ℕ → K) (hd : Slots d e xs) (h : e.prod ≤ size) :
    ∃ d', h5Append d fill size mem = some d' ∧ Slots d' e (xs ++ [mem]) := by
  obtain ⟨hdims, hval⟩ := hd
  unfold h5Append H5Dataset.writeSlab H5Dataset.setExtent
  rw [hdims]
  dsimp only
  rw [if_pos (by simpa using h)]
  refine ⟨_, rfl, by simp, ?_⟩
  intro t x hx idx hidx
  dsimp only
  by_cases ht : t < xs.length
  · rw [List.getElem?_append_left ht] at hx
    have hns : ¬ InSlab (xs.length :: e.map fun _ => 0) (1 :: e) (t :: idx) := by
      rw [inSlab_cons]; omega
    rw [if_neg hns, if_pos ((inExtent_cons _ _ _ _).mpr ⟨ht, hidx⟩)]
    exact hval t x hx idx hidx
  · have hteq : t = xs.length := by
      have := (List.getElem?_eq_some_iff.mp hx).1
      simp at this
      omega
    subst hteq
    rw [List.getElem?_append_right (Nat.le_refl _), Nat.sub_self, List.getElem?_cons_zero, Option.some.injEq] at hx
    subst hx
    have hs : InSlab (xs.length :: e.map fun _ => 0) (1 :: e) (xs.length :: idx) :=
      (inSlab_cons _ _ _ _ _ _).mpr ⟨by omega, (inSlab_zero _ _).mpr hidx⟩
    rw [if_pos hs, List.zipWith_cons_cons, Nat.sub_self, zipWith_sub_zero _ _ hidx.1, rowMajor_one]

/-- The entries of a dataset, if the dataset exists. -/
def SlotsOpt (d : Option (H5Dataset K)) (e : List ℕ) (xs : Option (List (ℕ → K))) : Prop :=
  match d, xs with
  | none, none => True
  | some d, some xs => Slots d e xs
  | _, _ => False

/-- The outputs of a history that got at least as far as step `k`. -/
def reached (k : ℕ) (h : List (GridOut K × ℕ)) : List (GridOut K) := (h.filter fun p => k < p.2).map Prod.fst

theorem reached_cons (k : ℕ) (p : GridOut K × ℕ) (h : List (GridOut K × ℕ)) :
    reached k (p :: h) = (if k < p.2 then [p.1] else []) ++ reached k h := by
  unfold reached
  by_cases hk : k < p.2 <;> simp [hk]

/-- State of a file all of whose datasets exist. -/
def FileHolds (f : H5Grid K) (e : List ℕ) (data times cycles : List (GridOut K)) : Prop :=
  ∃ d t c, f = ⟨some d, some t, some c⟩ ∧ Slots d e (data.map GridOut.mem) ∧ Slots t [] (times.map fun o _ => o.time) ∧ Slots c [] (cycles.map fun o _ => o.cycle)

theorem h5GridAppend_holds [Zero K] (f : H5Grid K) (e : List ℕ) (A B C : List (GridOut K)) (o : GridOut K) (s : ℕ) (ho : o.ext = e)
    (hf : FileHolds f e A B C) :
    ∃ f', h5GridAppend f o s = some f' ∧
      FileHolds f' e (A ++ if 0 < s then [o] else []) (B ++ if 1 < s then [o] else []) (C ++ if 2 < s then [o] else []) := by
  obtain ⟨d, t, c, rfl, hd, ht, hc⟩ := hf
  obtain ⟨d', hd1, hd2⟩ := h5Append_slots d 0 e _ o.ext.prod o.mem hd (by rw [ho])
  obtain ⟨t', ht1, ht2⟩ := h5Append_slots t 0 [] _ 1 (fun _ => o.time) ht (by simp)
  obtain ⟨c', hc1, hc2⟩ := h5Append_slots c 0 [] _ 1 (fun _ => o.cycle) hc (by simp)
  have hd2' : Slots d' e ((A ++ [o]).map GridOut.mem) := by simpa using hd2
  have ht2' : Slots t' [] ((B ++ [o]).map fun o _ => o.time) := by simpa using ht2
  have hc2' : Slots c' [] ((C ++ [o]).map fun o _ => o.cycle) := by simpa using hc2
  unfold h5GridAppend
  rcases s with _ | _ | _ | s
  · exact ⟨_, rfl, d, t, c, rfl, by simpa using hd, by simpa using ht, by simpa using hc⟩
  · simp only [hd1]
    exact ⟨_, rfl, d', t, c, rfl, by simpa using hd2, by simpa using ht, by simpa using hc⟩
  · simp only [hd1, ht1]
    exact ⟨_, rfl, d', t', c, rfl, by simpa using hd2, by simpa using ht2, by simpa using hc⟩
  · simp only [hd1, ht1, hc1]
    exact ⟨_, rfl, d', t', c', rfl, by simpa using hd2, by simpa using ht2, by simpa using hc2⟩

theorem h5GridRun_holds [Zero K] (e : List ℕ) : ∀ (h : List (GridOut K × ℕ)) (f : H5Grid K) (A B C : List (GridOut K)), (∀ p ∈ h, p.1.ext = e) →
    FileHolds f e A B C → ∃ f', h5GridRun (some f) h = some (some f') ∧ FileHolds f' e (A ++ reached 0 h) (B ++ reached 1 h) (C ++ reached 2 h)
  | [], f, A, B, C, _, hf => ⟨f, rfl, by simpa [reached] using hf⟩
  | (o, s) :: h, f, A, B, C, he, hf => by
    obtain ⟨f1, hf1, hh⟩ := h5GridAppend_holds f e A B C o s (he (o, s) (by simp)) hf
    obtain ⟨f', hr, hh'⟩ := h5GridRun_holds e h f1 _ _ _ (fun p hp => he p (List.mem_cons_of_mem _ hp)) hh
    refine ⟨f', ?_, ?_⟩
    · show (match h5GridAppend f o s with
        | none => none
        | some g => h5GridRun (some g) h) = _
      rw [hf1]; exact hr
    · rw [reached_cons, reached_cons, reached_cons, ← List.append_assoc, ← List.append_assoc, ← List.append_assoc]
      exact hh'

theorem h5GridCreate_holds [Zero K] (o : GridOut K) : ∃ f, h5GridCreate o 3 = some f ∧ FileHolds f o.ext [o] [o] [o] := by
  obtain ⟨d, hd1, hd2⟩ := h5Create_slots 0 o.ext o.ext.prod o.mem (Nat.le_refl _)
  obtain ⟨t, ht1, ht2⟩ := h5Create_slots 0 [] 1 (fun _ => o.time) (by simp)
  obtain ⟨c, hc1, hc2⟩ := h5Create_slots 0 [] 1 (fun _ => o.cycle) (by simp)
  unfold h5GridCreate
  simp only [hd1, ht1, hc1]
  exact ⟨_, rfl, d, t, c, rfl, by simpa using hd2, by simpa using ht2, by simpa using hc2⟩

/-! ### C111 -/

/-- C111: any history of outputs of the same extents into a new file, each of which may stop (crash) after any number of its three datasets, except for the first one:
`/data` holds exactly the fabs of the outputs that wrote it, in order, `/times` the times of the outputs that got to it, and `/cycles` the cycles of the outputs that
were finished. Nothing that was written before a crash is changed. -/
theorem hdf5_history_with_crashes [Zero K] (o : GridOut K) (h : List (GridOut K × ℕ)) (he : ∀ p ∈ h, p.1.ext = o.ext) :
    ∃ f d t c, h5GridRun none ((o, 3) :: h) = some (some f) ∧ f = ⟨some d, some t, some c⟩ ∧
      Slots d o.ext ((o :: reached 0 h).map GridOut.mem) ∧ Slots t [] ((o :: reached 1 h).map fun p _ => p.time) ∧
      Slots c [] ((o :: reached 2 h).map fun p _ => p.cycle) := by
  obtain ⟨f, hf, hh⟩ := h5GridCreate_holds o
  obtain ⟨f', hr, d, t, c, hf', hd, ht, hc⟩ := h5GridRun_holds o.ext h f _ _ _ he hh
  refine ⟨f', d, t, c, ?_, hf', by simpa using hd, by simpa using ht, by simpa using hc⟩
  show (match h5GridCreate o 3 with
    | none => none
    | some g => h5GridRun (some g) h) = _
  rw [hf]; exact hr

theorem reached_all (k : ℕ) (hk : k < 3) (os : List (GridOut K)) : reached k (os.map fun o => (o, 3)) = os := by
  induction os with
  | nil => rfl
  | cons o os ih => rw [List.map_cons, reached_cons, ih, if_pos hk]; rfl

/-- C111: after any history of finished outputs of the same extents, the file holds all of them: entry `t` of `/data`, `/times` and `/cycles` is fab, time and cycle
of output `t`, and there are no other entries. -/
theorem hdf5_history [Zero K] (o : GridOut K) (os : List (GridOut K)) (he : ∀ p ∈ os, p.ext = o.ext) :
    ∃ f d t c, h5GridRun none ((o :: os).map fun p => (p, 3)) = some (some f) ∧ f = ⟨some d, some t, some c⟩ ∧
      d.dims = (os.length + 1) :: o.ext ∧ t.dims = [os.length + 1] ∧ c.dims = [os.length + 1] ∧
      ∀ n p, (o :: os)[n]? = some p →
        (∀ idx, InExtent o.ext idx → d.val (n :: idx) = p.mem (rowMajor o.ext idx)) ∧ t.val [n] = p.time ∧ c.val [n] = p.cycle := by
  obtain ⟨f, d, t, c, hr, hf, hd, ht, hc⟩ := hdf5_history_with_crashes o (os.map fun p => (p, 3)) (by
    intro p hp
    obtain ⟨q, hq, rfl⟩ := List.mem_map.mp hp
    exact he q hq)
  rw [reached_all 0 (by omega)] at hd
  rw [reached_all 1 (by omega)] at ht
  rw [reached_all 2 (by omega)] at hc
  refine ⟨f, d, t, c, hr, hf, by simpa using hd.1, by simpa using ht.1, by simpa using hc.1, ?_⟩
  intro n p hp
  refine ⟨?_, ?_, ?_⟩
  · exact hd.2 n p.mem (by rw [List.getElem?_map, hp]; rfl)
  · exact ht.2 n (fun _ => p.time) (by rw [List.getElem?_map, hp]; rfl) [] inExtent_nil
  · exact hc.2 n (fun _ => p.cycle) (by rw [List.getElem?_map, hp]; rfl) [] inExtent_nil

/-- C111, limit: after a crash between `/data` and `/times` the file is opened again and all later outputs are shifted. Entry `n` of `/data` is the fab of the output
whose time is entry `n - 1` of `/times`. -/
theorem hdf5_crash_misaligns [Zero K] (o x : GridOut K) (pre post : List (GridOut K)) (hpre : ∀ p ∈ pre, p.ext = o.ext) (hx : x.ext = o.ext)
    (hpost : ∀ p ∈ post, p.ext = o.ext) :
    ∃ f d t c, h5GridRun none ((o :: pre).map (fun p => (p, 3)) ++ (x, 1) :: post.map fun p => (p, 3)) = some (some f) ∧ f = ⟨some d, some t, some c⟩ ∧
      d.dims = (pre.length + post.length + 2) :: o.ext ∧ t.dims = [pre.length + post.length + 1] ∧
      ∀ k p, post[k]? = some p →
        (∀ idx, InExtent o.ext idx → d.val ((pre.length + 2 + k) :: idx) = p.mem (rowMajor o.ext idx)) ∧ t.val [pre.length + 1 + k] = p.time := by
  obtain ⟨f, d, t, c, hr, hf, hd, ht, -⟩ := hdf5_history_with_crashes o (pre.map (fun p => (p, 3)) ++ (x, 1) :: post.map fun p => (p, 3)) (by
    intro p hp
    rcases List.mem_append.mp hp with hp | hp
    · obtain ⟨q, hq, rfl⟩ := List.mem_map.mp hp
      exact hpre q hq
    · rcases List.mem_cons.mp hp with rfl | hp
      · exact hx
      · obtain ⟨q, hq, rfl⟩ := List.mem_map.mp hp
        exact hpost q hq)
  have happ : ∀ (k : ℕ) (a b : List (GridOut K × ℕ)), reached k (a ++ b) = reached k a ++ reached k b := by
    intro k a b; simp [reached]
  rw [happ, reached_cons, reached_all 0 (by omega), reached_all 0 (by omega), if_pos (by simp)] at hd
  rw [happ, reached_cons, reached_all 1 (by omega), reached_all 1 (by omega), if_neg (by simp)] at ht
  refine ⟨f, d, t, c, hr, hf, ?_, ?_, ?_⟩
  · rw [hd.1]; simp; omega
  · rw [ht.1]; simp
  · intro k p hp
    refine ⟨?_, ?_⟩
    · refine hd.2 _ p.mem ?_
      rw [List.getElem?_map]
      have : (o :: (pre ++ ([(x, 1).1] ++ post)))[pre.length + 2 + k]? = some p := by
        rw [show pre.length + 2 + k = (pre.length + (1 + k)) + 1 by omega, List.getElem?_cons_succ,
          List.getElem?_append_right (by omega), show pre.length + (1 + k) - pre.length = k + 1 by omega]
        exact hp
      rw [this]; rfl
    · refine ht.2 _ (fun _ => p.time) ?_ [] inExtent_nil
      rw [List.getElem?_map]
      have : (o :: (pre ++ ([] ++ post)))[pre.length + 1 + k]? = some p := by
        rw [show pre.length + 1 + k = (pre.length + k) + 1 by omega, List.getElem?_cons_succ, List.nil_append,
          List.getElem?_append_right (by omega), show pre.length + k - pre.length = k by omega]
        exact hp
      rw [this]; rfl

/-- C111, limit: if the first output stops before `/times` is created, no later output records a time or a cycle. -/
theorem hdf5_crash_in_create_loses_times [Zero K] (o : GridOut K) (h : List (GridOut K × ℕ)) (f : H5Grid K)
    (hr : h5GridRun none ((o, 1) :: h) = some (some f)) : f.times = none ∧ f.cycles = none := by
  have key : ∀ (h : List (GridOut K × ℕ)) (g : H5Grid K), g.times = none → g.cycles = none → h5GridRun (some g) h = some (some f) →
      f.times = none ∧ f.cycles = none := by
    intro h
    induction h with
    | nil =>
      intro g h1 h2 hg
      obtain rfl : g = f := by simpa [h5GridRun] using hg
      exact ⟨h1, h2⟩
    | cons p h ih =>
      intro g h1 h2 hg
      obtain ⟨q, s⟩ := p
      change (match h5GridAppend g q s with
        | none => none
        | some g' => h5GridRun (some g') h) = _ at hg
      have hstep : ∀ g', h5GridAppend g q s = some g' → g'.times = none ∧ g'.cycles = none := by
        intro g' hg'
        unfold h5GridAppend at hg'
        split at hg'
        · obtain rfl : g = g' := by simpa using hg'
          exact ⟨h1, h2⟩
        · split at hg'
          · obtain rfl : g = g' := by simpa using hg'
            exact ⟨h1, h2⟩
          · rename_i d _
            cases hd : h5Append d 0 q.ext.prod q.mem with
            | none => simp [hd] at hg'
            | some d' =>
              simp only [hd, h1] at hg'
              have : { g with data := some d' } = g' := by
                by_cases hs : s = 1 <;> simpa [hs, h1] using hg'
              subst this
              exact ⟨by simpa using h1, h2⟩
      cases hg' : h5GridAppend g q s with
      | none => rw [hg'] at hg; simp at hg
      | some g' =>
        rw [hg'] at hg
        exact ih g' (hstep g' hg').1 (hstep g' hg').2 hg
  obtain ⟨d, hd1, -⟩ := h5Create_slots 0 o.ext o.ext.prod o.mem (Nat.le_refl _)
  obtain ⟨t, ht1, -⟩ := h5Create_slots 0 [] 1 (fun _ => o.time) (by simp)
  obtain ⟨c, hc1, -⟩ := h5Create_slots 0 [] 1 (fun _ => o.cycle) (by simp)
  have hcr : h5GridCreate o 1 = some ⟨some d, none, none⟩ := by
    unfold h5GridCreate
    simp [hd1, ht1, hc1]
  change (match h5GridCreate o 1 with
    | none => none
    | some g => h5GridRun (some g) h) = _ at hr
  rw [hcr] at hr
  exact key h _ rfl rfl hr

/-- C111, limit: an output whose fab has other extents than the file. If it is smaller, memory behind its end is read. Otherwise the entry is filled with the first
elements of its memory, in the shape of the file. -/
theorem hdf5_shape_change [Zero K] (d : H5Dataset K) (e : List ℕ) (xs : List (ℕ → K)) (o : GridOut K) (hd : Slots d e xs) :
    (o.ext.prod < e.prod → h5Append d 0 o.ext.prod o.mem = none) ∧
      (e.prod ≤ o.ext.prod → ∃ d', h5Append d 0 o.ext.prod o.mem = some d' ∧ Slots d' e (xs ++ [o.mem])) := by
  refine ⟨?_, fun h => h5Append_slots d 0 e xs _ _ hd h⟩
  intro h
  unfold h5Append H5Dataset.writeSlab
  rw [hd.1]
  dsimp only
  rw [if_neg (by simp only [List.prod_cons, Nat.one_mul]; omega)]

/-- C111, example: the second fab has one more cell in x direction (2x2 and then 3x2 cells, one component): element `[1, 0, 1, 0]` of the file, which
stands for cell (0, 1) to the reader, is cell (2, 0). -/
theorem hdf5_shape_change_mixes_cells :
    ∃ f d, h5GridRun none [(⟨[1, 2, 2], fabMem 2 2 (fun _ i j => (10 * i + j : ℚ)), 0, 0⟩, 3), (⟨[1, 3, 2], fabMem 3 2 (fun _ i j => (10 * i + j : ℚ)), 1, 1⟩, 3)] =
      some (some f) ∧ f.data = some d ∧ d.val [1, 0, 1, 0] = 20 := by
  refine ⟨_, _, rfl, rfl, ?_⟩
  decide +kernel

/-- C111: round trip. A history of two dimensional outputs is read back by `h5_load_spec_timepoint_variable`: row `j` and column `i` of the array of variable `c` at
time `n` is the value of component `c` in cell `(i, j)` of output `n`. -/
theorem hdf5_reader_round_trip [Zero K] (nc nx ny : ℕ) (v : ℕ → ℕ → ℕ → ℕ → K) (time : ℕ → K) (cycle : ℕ → ℤ) (T : ℕ) :
    ∃ f, h5GridRun none ((List.range (T + 1)).map fun n => ((⟨[nc, nx, ny], fabMem nx ny (v n), time n, cycle n⟩ : GridOut K), 3)) = some (some f) ∧
      ∀ n ≤ T, ∀ c < nc, ∃ a, h5LoadTimepoint f n c = some a ∧ ∀ i < nx, ∀ j < ny, a j i = v n c i j := by
  set out : ℕ → GridOut K := fun n => ⟨[nc, nx, ny], fabMem nx ny (v n), time n, cycle n⟩ with hout
  obtain ⟨f, d, t, c, hr, hf, hdims, -, -, hval⟩ := hdf5_history (out 0) ((List.range T).map fun n => out (n + 1)) (by
    intro p hp
    obtain ⟨q, -, rfl⟩ := List.mem_map.mp hp
    rfl)
  have hlist : (List.range (T + 1)).map out = out 0 :: (List.range T).map fun n => out (n + 1) := by
    rw [List.range_succ_eq_map]; simp [Function.comp_def]
  refine ⟨f, ?_, ?_⟩
  · rw [← hr, ← hlist, List.map_map]; rfl
  · intro n hn c' hc'
    have hget : (out 0 :: (List.range T).map fun n => out (n + 1))[n]? = some (out n) := by
      rw [← hlist, List.getElem?_map, List.getElem?_range (by omega)]; rfl
    obtain ⟨hv, -, -⟩ := hval n (out n) hget
    subst hf
    unfold h5LoadTimepoint
    have hdims' : d.dims = [T + 1, nc, nx, ny] := by rw [hdims]; simp [hout]
    simp only [hdims']
    refine ⟨_, rfl, ?_⟩
    intro i hi j hj
    have hny : 0 < ny := by omega
    have hnx : 0 < nx := by omega
    unfold npReshape
    have hq : (j * nx + i) < nx * ny := by
      calc j * nx + i < j * nx + nx := by omega
        _ = nx * (j + 1) := by ring
        _ ≤ nx * ny := Nat.mul_le_mul_left _ hj
    generalize hqd : j * nx + i = q at hq ⊢
    have h1 : q / ny < nx := by rw [Nat.div_lt_iff_lt_mul hny]; exact hq
    have h2 : q % ny < ny := Nat.mod_lt _ hny
    show d.val [n, c', q / ny, q % ny] = _
    rw [hv [c', q / ny, q % ny] (by
      show InExtent [nc, nx, ny] _
      rw [inExtent_cons, inExtent_cons, inExtent_cons]
      exact ⟨hc', h1, h2, inExtent_nil⟩)]
    show fabMem nx ny (v n) (rowMajor [nc, nx, ny] [c', q / ny, q % ny]) = _
    have haddr : rowMajor [nc, nx, ny] [c', q / ny, q % ny] = c' * (nx * ny) + q := by
      simp only [rowMajor, List.zip_cons_cons, List.zip_nil_right, List.foldl_cons, List.foldl_nil]
      have := Nat.div_add_mod q ny
      calc (((0 * nc + c') * nx + q / ny) * ny + q % ny) = c' * (nx * ny) + (ny * (q / ny) + q % ny) := by ring
        _ = _ := by rw [this]
    rw [haddr]
    unfold fabMem
    have hmod : (c' * (nx * ny) + q) % (nx * ny) = q := by
      rw [Nat.add_comm, Nat.add_mul_mod_self_right, Nat.mod_eq_of_lt hq]
    have hdiv : (c' * (nx * ny) + q) / (nx * ny) = c' := by
      rw [Nat.add_comm, Nat.add_mul_div_right _ _ (by positivity), Nat.div_eq_of_lt hq, Nat.zero_add]
    rw [hmod, hdiv, ← hqd]
    have e1 : (j * nx + i) % nx = i := by rw [Nat.add_comm, Nat.add_mul_mod_self_right, Nat.mod_eq_of_lt hi]
    have e2 : (j * nx + i) / nx = j := by rw [Nat.add_comm, Nat.add_mul_div_right _ _ hnx, Nat.div_eq_of_lt hi, Nat.zero_add]
    rw [e1, e2]

/-- C111, disagreement: `h5_load_several_timepoints_variable` returns the array in the shape of the file instead of the reshaped one. For 2x3 cells with the value
`10 * i + j` in cell `(i, j)`, row 1 is (1, 11), the cells (0, 1) and (1, 1), for the first reader, and (11, 2) for this one. -/
theorem hdf5_several_reader_mixes_cells :
    ∃ f : H5Grid ℚ, h5GridRun none [(⟨[1, 2, 3], fabMem 2 3 (fun _ i j => (10 * i + j : ℚ)), 0, 0⟩, 3)] = some (some f) ∧
      (h5LoadTimepoint f 0 0).map (fun a => (a 1 0, a 1 1)) = some (1, 11) ∧ (h5LoadSeveral f 0 0).map (fun a => (a 1 0, a 1 1)) = some (11, 2) := by
  refine ⟨_, rfl, ?_, ?_⟩ <;> decide +kernel

/-- The history theorems on a concrete history: three outputs, the second one crashes before `/times`. -/
example : ∃ f d t, h5GridRun none [(⟨[1, 2], fun a => (a : ℚ), 0, 0⟩, 3), (⟨[1, 2], fun a => (a + 10 : ℚ), 1, 1⟩, 1), (⟨[1, 2], fun a => (a + 20 : ℚ), 2, 2⟩, 3)] =
    some (some f) ∧ f.data = some d ∧ f.times = some t ∧ d.dims = [3, 1, 2] ∧ t.dims = [2] ∧ d.val [2, 0, 1] = 21 ∧ d.val [1, 0, 1] = 11 ∧ t.val [1] = 2 := by
  refine ⟨_, _, _, rfl, rfl, rfl, rfl, rfl, ?_, ?_, ?_⟩ <;> decide +kernel

end Grid

/-! ### C112 -/

section Names
variable {C : Type}

theorem numbered_ne (path : String) (i : ℕ) : numbered path i ≠ path := by
  intro h
  have := congrArg String.length h
  unfold numbered at this
  rw [String.length_append, String.length_append] at this
  have h1 : ".".length = 1 := rfl
  omega

theorem numbered_inj (path : String) (i j : ℕ) (h : numbered path i = numbered path j) : i = j := by
  unfold numbered at h
  have := congrArg String.toList h
  simp only [String.toList_append, List.append_cancel_left_eq] at this
  exact Nat.repr_injective (String.toList_injective this)

theorem freeName_some (fs : Fs C) (path : String) (limit : ℕ) (new : String) (h : freeName fs path limit = some new) :
    ∃ i, 1 ≤ i ∧ i < limit ∧ new = numbered path i ∧ fs new = none ∧ ∀ j, 1 ≤ j → j < i → fs (numbered path j) ≠ none := by
  unfold freeName at h
  obtain ⟨i, hi, rfl⟩ := Option.map_eq_some_iff.mp h
  have hmem := List.mem_of_find?_eq_some hi
  have hp := List.find?_some hi
  rw [List.mem_range'_1] at hmem
  refine ⟨i, by omega, by omega, rfl, by simpa using hp, ?_⟩
  intro j hj1 hj2 hj
  rw [List.find?_eq_some_iff_append] at hi
  obtain ⟨-, as, bs, hab, hall⟩ := hi
  have hjm : j ∈ List.range' 1 (limit - 1) := by rw [List.mem_range'_1]; omega
  rw [hab] at hjm
  have hsorted : (as ++ i :: bs).Pairwise (· < ·) := by rw [← hab]; exact List.pairwise_lt_range'
  rcases List.mem_append.mp hjm with hm | hm
  · have := hall j hm
    simp [hj] at this
  · rcases List.mem_cons.mp hm with rfl | hm
    · omega
    · have := (List.pairwise_append.mp hsorted).2.1
      have := (List.pairwise_cons.mp this).1 j hm
      omega

theorem freeName_none (fs : Fs C) (path : String) (limit : ℕ) (h : freeName fs path limit = none) : ∀ i, 1 ≤ i → i < limit → fs (numbered path i) ≠ none := by
  unfold freeName at h
  rw [Option.map_eq_none_iff, List.find?_eq_none] at h
  intro i h1 h2 hi
  have := h i (by rw [List.mem_range'_1]; omega)
  simp [hi] at this

/-- C112: construction of an output object never destroys anything: all other paths keep what they have, and the content of an old file is kept, either under its name
or under the first free numbered name. If a numbered name is free, the path that will be written to is free afterwards. -/
theorem output_construction_keeps_files (fs : Fs C) (path : String) (limit : ℕ) :
    (∀ q n, q ≠ path → fs q = some n → (prepareOutput fs path limit).1 q = some n) ∧
      (∀ n, fs path = some n → ∃ q, (prepareOutput fs path limit).1 q = some n ∧ (q = path ∨ ∃ i, 1 ≤ i ∧ i < limit ∧ q = numbered path i ∧ fs q = none)) ∧
      ((∃ i, 1 ≤ i ∧ i < limit ∧ fs (numbered path i) = none) → (prepareOutput fs path limit).1 (prepareOutput fs path limit).2 = none) := by
  unfold prepareOutput
  cases hp : fs path with
  | none => exact ⟨fun q n _ h => h, fun n h => by simp at h, fun _ => hp⟩
  | some node =>
    cases node with
    | file c =>
      cases hfree : freeName fs path limit with
      | none =>
        refine ⟨fun q n _ h => h, fun n h => ⟨path, by simpa [hp] using h, Or.inl rfl⟩, ?_⟩
        rintro ⟨i, h1, h2, h3⟩
        exact absurd h3 (freeName_none fs path limit hfree i h1 h2)
      | some new =>
        obtain ⟨i, hi1, hi2, rfl, hnone, -⟩ := freeName_some fs path limit new hfree
        refine ⟨?_, ?_, ?_⟩
        · intro q n hq h
          have hqn : q ≠ numbered path i := by rintro rfl; rw [hnone] at h; simp at h
          simp [hq, hqn, h]
        · intro n h
          refine ⟨numbered path i, ?_, Or.inr ⟨i, hi1, hi2, rfl, hnone⟩⟩
          simp only [Option.some.injEq] at h
          simp [numbered_ne, h]
        · intro _; simp
    | other =>
      cases hfree : freeName fs path limit with
      | none =>
        refine ⟨fun q n _ h => h, fun n h => ⟨path, by simpa [hp] using h, Or.inl rfl⟩, ?_⟩
        rintro ⟨i, h1, h2, h3⟩
        exact absurd h3 (freeName_none fs path limit hfree i h1 h2)
      | some new =>
        obtain ⟨i, hi1, hi2, rfl, hnone, -⟩ := freeName_some fs path limit new hfree
        exact ⟨fun q n _ h => h, fun n h => ⟨path, by simpa [hp] using h, Or.inl rfl⟩, fun _ => hnone⟩

/-- One run of a program: the output is constructed and the content of the run is written. -/
def runOnce (limit : ℕ) (path : String) (fs : Fs C) (content : C) : Fs C :=
  let p := prepareOutput fs path limit
  fun q => if q = p.2 then some (.file content) else p.1 q

/-- C112: a sequence of runs with the same output path, starting without any such file: the results of all runs are kept. The last run is found under the path and run
`i` under the path with the number `i`. -/
theorem output_runs_keep_all (limit : ℕ) (path : String) (fs : Fs C) (hfree : fs path = none) (hn : ∀ i, fs (numbered path i) = none) :
    ∀ (runs : List C) (last : C), runs.length < limit - 1 →
      let fs' := (runs ++ [last]).foldl (runOnce limit path) fs
      fs' path = some (.file last) ∧ (∀ i c, runs[i]? = some c → fs' (numbered path (i + 1)) = some (.file c)) ∧
        (∀ i, runs.length < i → fs' (numbered path i) = none) := by
  intro runs
  induction runs using List.reverseRecOn with
  | nil =>
    intro last _
    have hprep : prepareOutput fs path limit = (fs, path) := by simp [prepareOutput, hfree]
    refine ⟨?_, ?_, ?_⟩
    · simp [runOnce, hprep]
    · intro i c h; simp at h
    · intro i _
      simp [runOnce, hprep, numbered_ne, hn]
  | append_singleton runs r ih =>
    intro last hlen
    simp only [List.length_append, List.length_singleton] at hlen
    obtain ⟨h1, h2, h3⟩ := ih r (by omega)
    rw [List.foldl_append]
    generalize (runs ++ [r]).foldl (runOnce limit path) fs = g at h1 h2 h3 ⊢
    have hfn : freeName g path limit = some (numbered path (runs.length + 1)) := by
      cases hf : freeName g path limit with
      | none => exact absurd (h3 (runs.length + 1) (by omega)) (freeName_none g path limit hf _ (by omega) (by omega))
      | some new =>
        obtain ⟨i, hi1, hi2, rfl, hnone, hmin⟩ := freeName_some g path limit new hf
        have hge : ¬ i ≤ runs.length := by
          intro hle
          obtain ⟨c, hc⟩ : ∃ c, runs[i - 1]? = some c := ⟨runs[i - 1], List.getElem?_eq_getElem (by omega)⟩
          have := h2 (i - 1) c hc
          rw [Nat.sub_add_cancel hi1, hnone] at this
          simp at this
        have hle : ¬ runs.length + 1 < i := fun hlt => hmin (runs.length + 1) (by omega) hlt (h3 _ (by omega))
        rw [show i = runs.length + 1 by omega]
    have hrun : (List.foldl (runOnce limit path) g [last]) = fun q => if q = path then some (.file last) else if q = numbered path (runs.length + 1) then
        some (.file r) else g q := by
      funext q
      simp only [List.foldl_cons, List.foldl_nil, runOnce, prepareOutput, h1, hfn]
      by_cases hq : q = path <;> simp [hq]
    rw [hrun]
    refine ⟨by simp, ?_, ?_⟩
    · intro i c hc
      dsimp only
      rw [if_neg (numbered_ne _ _)]
      by_cases hi : i < runs.length
      · rw [List.getElem?_append_left hi] at hc
        rw [if_neg (fun he => by have := numbered_inj _ _ _ he; omega)]
        exact h2 i c hc
      · have : i = runs.length := by
          have := (List.getElem?_eq_some_iff.mp hc).1
          simp at this; omega
        subst this
        rw [List.getElem?_append_right (Nat.le_refl _), Nat.sub_self, List.getElem?_cons_zero, Option.some.injEq] at hc
        rw [if_pos rfl, hc]
    · intro i hi
      simp only [List.length_append, List.length_singleton] at hi
      dsimp only
      rw [if_neg (numbered_ne _ _), if_neg (fun he => by have := numbered_inj _ _ _ he; omega)]
      exact h3 i (by omega)

/-- C112, limit: if all numbered names exist, the old file stays where it is and the new run is appended to it. -/
theorem output_names_exhausted (fs : Fs C) (path : String) (limit : ℕ) (h : ∀ i, 1 ≤ i → i < limit → fs (numbered path i) ≠ none) :
    prepareOutput fs path limit = (fs, path) := by
  have hf : freeName fs path limit = none := by
    cases hf : freeName fs path limit with
    | none => rfl
    | some new =>
      obtain ⟨i, h1, h2, rfl, h3, -⟩ := freeName_some fs path limit new hf
      exact absurd h3 (h i h1 h2)
  unfold prepareOutput
  rw [hf]
  cases fs path with
  | none => rfl
  | some n => cases n <;> rfl

/-- Concrete runs: three runs with one path. -/
example : let fs' := ["a", "b", "c"].foldl (runOnce 100 "grid.h5") (fun _ => none)
    fs' "grid.h5" = some (.file "c") ∧ fs' (numbered "grid.h5" 1) = some (.file "a") ∧ fs' (numbered "grid.h5" 2) = some (.file "b") := by
  have h := output_runs_keep_all (C := String) 100 "grid.h5" (fun _ => none) rfl (fun _ => rfl) ["a", "b"] "c" (by decide)
  exact ⟨h.1, h.2.1 0 "a" rfl, h.2.1 1 "b" rfl⟩

/-! ### C113 -/

/-- C113, disagreement: the old probe files of tubes are not moved away: the rename looks at the path without number and extension. What an earlier run has written
to a tube file is still there when the output of the new run starts, and is extended. -/
theorem tube_probe_files_not_renamed (fs : Fs C) (path : String) (limit k : ℕ) : renameIfExists fs path limit (tubeFile path k) = fs (tubeFile path k) := by
  unfold renameIfExists
  cases hp : fs path with
  | none => rfl
  | some node =>
    dsimp only
    cases hi : (List.range' 1 limit).find? fun i => (fs (path ++ ".old." ++ toString i)).isNone with
    | some i =>
      dsimp only
      have h1 : tubeFile path k ≠ path := by
        intro h
        have := congrArg String.length h
        unfold tubeFile at this
        rw [String.length_append, String.length_append, String.length_append] at this
        have h1 : "_".length = 1 := rfl
        omega
      have h2 : tubeFile path k ≠ path ++ ".old." ++ toString i := by
        intro h
        have := congrArg String.toList h
        simp only [tubeFile, String.toList_append, List.append_assoc, List.append_cancel_left_eq] at this
        simp at this
      rw [if_neg h1, if_neg h2]
    | none => rfl

end Names

/-- The file of the plenum is moved away: its old content is kept under the first free name. -/
theorem plenum_probe_file_renamed {C : Type} (fs : Fs C) (path : String) (limit i : ℕ) (n : FsNode C) (hp : fs path = some n) (hi : 1 ≤ i) (hl : i ≤ limit)
    (hfree : fs (path ++ ".old." ++ toString i) = none) :
    renameIfExists fs path limit path = none ∧ ∃ j, 1 ≤ j ∧ j ≤ i ∧ fs (path ++ ".old." ++ toString j) = none ∧
      renameIfExists fs path limit (path ++ ".old." ++ toString j) = some n := by
  unfold renameIfExists
  rw [hp]
  dsimp only
  cases hf : (List.range' 1 limit).find? fun i => (fs (path ++ ".old." ++ toString i)).isNone with
  | none =>
    rw [List.find?_eq_none] at hf
    have := hf i (by rw [List.mem_range'_1]; omega)
    rw [hfree] at this
    exact absurd rfl this
  | some j =>
    have hj := List.find?_some hf
    have hmem := List.mem_of_find?_eq_some hf
    rw [List.mem_range'_1] at hmem
    have hne : path ++ ".old." ++ toString j ≠ path := by
      intro h
      have := congrArg String.length h
      rw [String.length_append, String.length_append] at this
      have h1 : ".old.".length = 5 := rfl
      omega
    refine ⟨by simp, j, hmem.1, ?_, by simpa using hj, by dsimp only; rw [if_neg hne, if_pos rfl]⟩
    by_contra hlt
    rw [List.find?_eq_some_iff_append] at hf
    obtain ⟨-, as, bs, hab, hall⟩ := hf
    have him : i ∈ List.range' 1 limit := by rw [List.mem_range'_1]; omega
    have hsorted : (as ++ j :: bs).Pairwise (· < ·) := by rw [← hab]; exact List.pairwise_lt_range'
    rw [hab] at him
    rcases List.mem_append.mp him with hm | hm
    · have := hall i hm
      rw [hfree] at this
      exact absurd this (by simp)
    · rcases List.mem_cons.mp hm with rfl | hm
      · omega
      · have := (List.pairwise_cons.mp (List.pairwise_append.mp hsorted).2.1).1 i hm
        omega

/-- The probe that the user asked for: the list has the probes of the first tube, then those of the second tube, and so on. -/
def wantedProbe {P : Type} (xs : List P) (nTubes tube i : ℕ) : Option P := if tube < nTubes ∧ i < xs.length / nTubes then xs[tube * (xs.length / nTubes) + i]? else none

/-- C113: the probes of the first tube are where the user asked for. In particular all probes are, if there is one tube. -/
theorem tube_probes_partial {P : Type} (xs : List P) (nTubes i : ℕ) : tubeProbe xs nTubes 0 i = wantedProbe xs nTubes 0 i := by
  unfold tubeProbe wantedProbe; simp

/-- C113, disagreement: all other tubes use the coordinates of the first tube. -/
theorem tube_probes_are_first_tube {P : Type} (xs : List P) (nTubes tube i : ℕ) (h : tube < nTubes) : tubeProbe xs nTubes tube i = wantedProbe xs nTubes 0 i := by
  unfold tubeProbe wantedProbe
  simp [h, Nat.zero_lt_of_lt h]

/-- C113, disagreement: two tubes with two probes each. -/
theorem tube_probes_wrong : tubeProbe [(1 : ℚ), 2, 3, 4] 2 1 0 = some 1 ∧ wantedProbe [(1 : ℚ), 2, 3, 4] 2 1 0 = some 3 := by decide +kernel

/-- C113: the dataset of the probes after any sequence of outputs: entry `[field, probe, t]` is the value of this field at this probe in output `t`. The buffer of
`GatherStates` has the values of a field at all probes next to each other. -/
theorem probe_history {K : Type} (fill : K) (nf np : ℕ) (s : (ℕ → ℕ → K)) (rest : List (ℕ → ℕ → K)) :
    ∃ d, probesRun fill nf np ((s :: rest).map fun (v : ℕ → ℕ → K) => (nf * np, fun a => v (a % np) (a / np))) = some (some d) ∧ d.dims = [nf, np, rest.length + 1] ∧
      ∀ t v, (s :: rest)[t]? = some v → ∀ c < nf, ∀ k < np, d.val [c, k, t] = v k c := by
  have haddr : ∀ (v : ℕ → ℕ → K) (c k : ℕ), k < np → (fun a => v (a % np) (a / np)) (rowMajor [nf, np, 1] [c, k, 0]) = v k c := by
    intro v c k hk
    have : rowMajor [nf, np, 1] [c, k, 0] = c * np + k := by simp [rowMajor]
    rw [this]
    have e1 : (c * np + k) % np = k := by rw [Nat.add_comm, Nat.add_mul_mod_self_right, Nat.mod_eq_of_lt hk]
    have e2 : (c * np + k) / np = c := by rw [Nat.add_comm, Nat.add_mul_div_right _ _ (by omega), Nat.div_eq_of_lt hk, Nat.zero_add]
    simp only [e1, e2]
  have key : ∀ (rest done : List (ℕ → ℕ → K)) (d : H5Dataset K), d.dims = [nf, np, done.length] →
      (∀ t v, done[t]? = some v → ∀ c < nf, ∀ k < np, d.val [c, k, t] = v k c) →
      ∃ d', (rest.map fun (v : ℕ → ℕ → K) => (nf * np, fun a => v (a % np) (a / np))).foldl
          (fun (acc : Option (H5Dataset K)) o => acc.bind fun d => probesAppend d fill o.1 o.2) (some d) = some d' ∧
        d'.dims = [nf, np, (done ++ rest).length] ∧ ∀ t v, (done ++ rest)[t]? = some v → ∀ c < nf, ∀ k < np, d'.val [c, k, t] = v k c := by
    intro rest
    induction rest with
    | nil => intro done d h1 h2; exact ⟨d, rfl, by simpa using h1, by simpa using h2⟩
    | cons v rest ih =>
      intro done d h1 h2
      have happ : ∃ d1, probesAppend d fill (nf * np) (fun a => v (a % np) (a / np)) = some d1 ∧ d1.dims = [nf, np, (done ++ [v]).length] ∧
          ∀ t w, (done ++ [v])[t]? = some w → ∀ c < nf, ∀ k < np, d1.val [c, k, t] = w k c := by
        unfold probesAppend H5Dataset.writeSlab H5Dataset.setExtent
        rw [h1]
        dsimp only
        rw [if_pos (by simp)]
        refine ⟨_, rfl, by simp, ?_⟩
        intro t w hw c hc k hk
        dsimp only
        by_cases ht : t < done.length
        · rw [List.getElem?_append_left ht] at hw
          rw [if_neg (by rw [inSlab_cons, inSlab_cons, inSlab_cons]; omega),
            if_pos (by rw [inExtent_cons, inExtent_cons, inExtent_cons]; exact ⟨hc, hk, ht, inExtent_nil⟩)]
          exact h2 t w hw c hc k hk
        · have hteq : t = done.length := by
            have := (List.getElem?_eq_some_iff.mp hw).1
            simp at this
            omega
          subst hteq
          rw [List.getElem?_append_right (Nat.le_refl _), Nat.sub_self, List.getElem?_cons_zero, Option.some.injEq] at hw
          subst hw
          rw [if_pos (by rw [inSlab_cons, inSlab_cons, inSlab_cons]; exact ⟨by omega, by omega, by omega, inSlab_nil⟩)]
          simp only [List.zipWith_cons_cons, Nat.sub_zero, Nat.sub_self, List.zipWith_nil_right]
          exact haddr v c k hk
      obtain ⟨d1, hd1, hd2, hd3⟩ := happ
      obtain ⟨d', hr, hd', hv'⟩ := ih (done ++ [v]) d1 hd2 hd3
      refine ⟨d', ?_, by simpa using hd', by simpa using hv'⟩
      rw [List.map_cons, List.foldl_cons]
      simp only [Option.bind_some, hd1]
      exact hr
  have hcr : ∃ d, probesCreate fill nf np (nf * np) (fun a => s (a % np) (a / np)) = some d ∧ d.dims = [nf, np, [s].length] ∧
      ∀ t v, [s][t]? = some v → ∀ c < nf, ∀ k < np, d.val [c, k, t] = v k c := by
    unfold probesCreate h5Create H5Dataset.writeSlab
    rw [if_pos (by simp)]
    refine ⟨_, rfl, rfl, ?_⟩
    intro t v hv c hc k hk
    have ht : t = 0 := by
      by_contra hne
      obtain ⟨m, rfl⟩ := Nat.exists_eq_succ_of_ne_zero hne
      simp at hv
    subst ht
    simp only [List.getElem?_cons_zero, Option.some.injEq] at hv
    subst hv
    dsimp only
    rw [if_pos ((inSlab_zero _ _).mpr (by rw [inExtent_cons, inExtent_cons, inExtent_cons]; exact ⟨hc, hk, Nat.one_pos, inExtent_nil⟩))]
    rw [zipWith_sub_zero [nf, np, 1] [c, k, 0] rfl]
    exact haddr s c k hk
  obtain ⟨d, hd1, hd2, hd3⟩ := hcr
  obtain ⟨d', hr, hd', hv'⟩ := key rest [s] d hd2 hd3
  refine ⟨d', ?_, ?_, by simpa using hv'⟩
  · simp only [List.map_cons, probesRun, hd1]
    rw [hr]; rfl
  · rw [hd']; simp [Nat.add_comm]

/-- C113: the block that is written. With a plenum, option 0 is the first plenum and option `w > 0` is tube `w - 1`, if there is such a tube. -/
theorem output_block_partial (w nPlena nTubes : ℤ) (hw : 0 ≤ w) (hp : w = 0 → 0 < nPlena) :
    outBlock w nPlena nTubes = if w = 0 then .plenum 0 else if w - 1 < nTubes then .tube (w - 1) else .nothing := by
  unfold outBlock
  by_cases h0 : w = 0
  · subst h0
    simp [hp rfl]
  · have hmax : max 0 (min w 1) = 1 := by omega
    simp only [hmax, h0, if_false]
    rw [if_neg (by simp)]
    by_cases ht : w - 1 < nTubes
    · rw [if_pos ht, if_pos (by omega), if_pos ht]
    · rw [if_neg ht, if_neg ht]

/-- C113, disagreement: without a plenum, option 0 writes tube 0, as option 1 does. -/
theorem output_block_no_plenum (nTubes : ℤ) (h : 0 < nTubes) : outBlock 0 0 nTubes = .tube 0 ∧ outBlock 1 0 nTubes = .tube 0 := by
  unfold outBlock; simp [h]

/-- C113, disagreement: every negative option accesses memory outside of the list of plena. -/
theorem output_block_negative (w nPlena nTubes : ℤ) (hw : w < 0) (hp : 0 ≤ nPlena) : outBlock w nPlena nTubes = .outOfRange := by
  unfold outBlock
  have hmax : max 0 (min w 1) = 0 := by omega
  simp only [hmax, sub_zero]
  rw [if_pos ⟨trivial, by omega⟩, if_neg (by omega)]

/-- C113, limit: no value of the option writes the second plenum. -/
theorem output_block_only_first_plenum (w nPlena nTubes k : ℤ) (h : outBlock w nPlena nTubes = .plenum k) : k = 0 := by
  unfold outBlock at h
  dsimp only at h
  split at h
  · rename_i hc
    split at h
    · rename_i h0
      simp only [OutBlock.plenum.injEq] at h
      omega
    · simp at h
  · split at h
    · split at h <;> simp at h
    · simp at h

/-! ### C114 -/

/-- No handle exists and nothing was opened or closed. -/
def H5State.start : H5State := ⟨fun _ => none, [], []⟩

/-- The invariant: each positive identifier is closed as often as it was opened, if no handle has it, and once less if a handle has it; at most one handle has it. -/
structure HandlesOk (s : H5State) : Prop where
  held : ∀ v id, 0 < id → s.var v = some id → s.opened.count id = s.closed.count id + 1
  free : ∀ id, 0 < id → (∀ v, s.var v ≠ some id) → s.opened.count id = s.closed.count id
  unique : ∀ v w id, 0 < id → s.var v = some id → s.var w = some id → v = w
  nonpos : ∀ id, id ≤ 0 → s.opened.count id = 0 ∧ s.closed.count id = 0

theorem count_h5Close (a id : ℤ) (l : List ℤ) : (if 0 < a then l ++ [a] else l).count id = l.count id + if 0 < a ∧ a = id then 1 else 0 := by
  by_cases ha : 0 < a
  · rw [if_pos ha, List.count_append]
    by_cases hid : a = id
    · subst hid; simp [ha]
    · simp [ha, hid, List.count_singleton]
  · rw [if_neg ha, if_neg (by tauto)]; rfl

theorem handlesOk_release (s : H5State) (h : HandlesOk s) (v : ℕ) (a : ℤ) (x : Option ℤ) (hv : s.var v = some a) (hx : ∀ id, 0 < id → x ≠ some id) :
    HandlesOk ⟨fun q => if q = v then x else s.var q, s.opened, h5Close a s.closed⟩ := by
  unfold h5Close
  refine ⟨?_, ?_, ?_, ?_⟩
  · intro u id hid hu
    dsimp only at hu ⊢
    by_cases huv : u = v
    · rw [if_pos huv] at hu; exact absurd hu (hx id hid)
    · rw [if_neg huv] at hu
      have hne : ¬ (0 < a ∧ a = id) := by
        rintro ⟨-, rfl⟩
        exact huv (h.unique u v a hid hu hv)
      rw [count_h5Close, if_neg hne]
      exact h.held u id hid hu
  · intro id hid hn
    dsimp only at hn ⊢
    rw [count_h5Close]
    by_cases ha : a = id
    · subst ha
      rw [if_pos ⟨hid, rfl⟩]
      exact h.held v a hid hv
    · rw [if_neg (by tauto)]
      refine h.free id hid fun u hu => ?_
      by_cases huv : u = v
      · subst huv; rw [hv] at hu; simp at hu; exact ha hu
      · have := hn u
        rw [if_neg huv] at this
        exact this hu
  · intro u w id hid hu hw
    dsimp only at hu hw
    by_cases huv : u = v
    · rw [if_pos huv] at hu; exact absurd hu (hx id hid)
    · by_cases hwv : w = v
      · rw [if_pos hwv] at hw; exact absurd hw (hx id hid)
      · rw [if_neg huv] at hu
        rw [if_neg hwv] at hw
        exact h.unique u w id hid hu hw
  · intro id hid
    dsimp only
    rw [count_h5Close, if_neg (by rintro ⟨h1, rfl⟩; omega)]
    exact h.nonpos id hid

theorem handlesOk_transfer (s : H5State) (h : HandlesOk s) (v w : ℕ) (b : ℤ) (hw : s.var w = some b) (hv : ∀ id, 0 < id → s.var v ≠ some id) :
    HandlesOk ⟨fun q => if q = v then some b else if q = w then some (-1) else s.var q, s.opened, s.closed⟩ := by
  have hneg : ∀ id : ℤ, 0 < id → (some (-1) : Option ℤ) ≠ some id := by
    intro id hid he
    simp only [Option.some.injEq] at he
    omega
  -- who holds a positive identifier
  have hwho : ∀ u id, 0 < id → (if u = v then some b else if u = w then some (-1) else s.var u) = some id →
      (u = v ∧ b = id) ∨ (u ≠ v ∧ u ≠ w ∧ s.var u = some id) := by
    intro u id hid hu
    by_cases huv : u = v
    · rw [if_pos huv] at hu
      exact Or.inl ⟨huv, by simpa using hu⟩
    · rw [if_neg huv] at hu
      by_cases huw : u = w
      · rw [if_pos huw] at hu; exact absurd hu (hneg id hid)
      · rw [if_neg huw] at hu
        exact Or.inr ⟨huv, huw, hu⟩
  refine ⟨?_, ?_, ?_, h.nonpos⟩
  · intro u id hid hu
    rcases hwho u id hid hu with ⟨-, rfl⟩ | ⟨-, -, hu'⟩
    · exact h.held w b hid hw
    · exact h.held u id hid hu'
  · intro id hid hn
    dsimp only at hn ⊢
    refine h.free id hid fun u hu => ?_
    have hbid : b ≠ id := by
      rintro rfl
      have := hn v
      rw [if_pos rfl] at this
      exact this rfl
    by_cases huv : u = v
    · subst huv; exact hv id hid hu
    · by_cases huw : u = w
      · subst huw; rw [hw] at hu; simp at hu; exact hbid hu
      · have := hn u
        rw [if_neg huv, if_neg huw] at this
        exact this hu
  · intro u u' id hid hu hu'
    rcases hwho u id hid hu with ⟨h1, h2⟩ | ⟨-, h3, h4⟩ <;> rcases hwho u' id hid hu' with ⟨h5, h6⟩ | ⟨-, h7, h8⟩
    · rw [h1, h5]
    · subst h2; exact absurd (h.unique u' w b hid h8 hw) h7
    · subst h6; exact absurd (h.unique u w b hid h4 hw) h3
    · exact h.unique u u' id hid h4 h8

theorem handlesOk_step (s s' : H5State) (op : H5Op) (h : HandlesOk s) (hs : h5Step s op = some s') : HandlesOk s' := by
  cases op with
  | init v id =>
    simp only [h5Step] at hs
    split at hs
    · rename_i hc
      obtain ⟨hv, hcount⟩ := hc
      simp only [Option.some.injEq] at hs
      subst hs
      refine ⟨?_, ?_, ?_, ?_⟩
      · intro u i hi hu
        dsimp only at hu ⊢
        rw [count_h5Close]
        by_cases huv : u = v
        · rw [if_pos huv] at hu
          simp only [Option.some.injEq] at hu
          subst hu
          rw [if_pos ⟨hi, rfl⟩, hcount hi]
        · rw [if_neg huv] at hu
          have hold := h.held u i hi hu
          rw [if_neg (by rintro ⟨h1, rfl⟩; have := hcount h1; omega)]
          exact hold
      · intro i hi hn
        dsimp only at hn ⊢
        have hne : id ≠ i := by
          rintro rfl
          have := hn v
          rw [if_pos rfl] at this
          exact this rfl
        rw [count_h5Close, if_neg (by tauto)]
        refine h.free i hi fun u hu => ?_
        have := hn u
        by_cases huv : u = v
        · subst huv; rw [hv] at hu; simp at hu
        · rw [if_neg huv] at this; exact this hu
      · intro u w i hi hu hw
        dsimp only at hu hw
        by_cases huv : u = v <;> by_cases hwv : w = v
        · rw [huv, hwv]
        · rw [if_pos huv] at hu
          rw [if_neg hwv] at hw
          simp only [Option.some.injEq] at hu
          subst hu
          have := h.held w id hi hw
          have := hcount hi
          omega
        · rw [if_neg huv] at hu
          rw [if_pos hwv] at hw
          simp only [Option.some.injEq] at hw
          subst hw
          have := h.held u id hi hu
          have := hcount hi
          omega
        · rw [if_neg huv] at hu
          rw [if_neg hwv] at hw
          exact h.unique u w i hi hu hw
      · intro i hi
        dsimp only
        rw [count_h5Close, if_neg (by rintro ⟨h1, rfl⟩; omega)]
        exact h.nonpos i hi
    · simp at hs
  | move v w =>
    simp only [h5Step] at hs
    split at hs
    · rename_i id hw
      split at hs
      · rename_i hv
        simp only [Option.some.injEq] at hs
        subst hs
        exact handlesOk_transfer s h v w id hw (fun i _ => by rw [hv]; simp)
      · simp at hs
    · simp at hs
  | assign v w =>
    simp only [h5Step] at hs
    split at hs
    · rename_i a b0 hv hw
      split at hs
      · rename_i b hb
        simp only [Option.some.injEq] at hs
        subst hs
        have h1 := handlesOk_release s h v a (some (-1)) hv (by
          intro id hid he
          simp only [Option.some.injEq] at he
          omega)
        have h2 := handlesOk_transfer _ h1 v w b hb (by
          intro id hid he
          dsimp only at he
          rw [if_pos rfl] at he
          simp only [Option.some.injEq] at he
          omega)
        exact h2
      · simp at hs
    · simp at hs
  | destroy v =>
    simp only [h5Step] at hs
    split at hs
    · rename_i a hv
      simp only [Option.some.injEq] at hs
      subst hs
      exact handlesOk_release s h v a none hv (by simp)
    · simp at hs

/-- C114: any sequence of constructions, moves, assignments and destructions of handles. At every point no identifier was closed more often than it was opened, an
identifier that is open has exactly one owner, identifiers of failed calls are never closed, and when no handle is left, everything that was opened is closed. -/
theorem handles_closed_exactly_once (ops : List H5Op) (s : H5State) (hr : h5Run H5State.start ops = some s) :
    (∀ id, s.closed.count id ≤ s.opened.count id) ∧ (∀ id, 0 < id → s.opened.count id = s.closed.count id + 1 → ∃! v, s.var v = some id) ∧
      (∀ v id, 0 < id → s.var v = some id → s.opened.count id = s.closed.count id + 1) ∧ (∀ id ∈ s.closed, 0 < id) ∧
      ((∀ v, s.var v = none) → s.closed.Perm s.opened) := by
  have hok : ∀ (ops : List H5Op) (s0 : H5State), HandlesOk s0 → h5Run s0 ops = some s → HandlesOk s := by
    intro ops
    induction ops with
    | nil => intro s0 h0 hr; simp only [h5Run, Option.some.injEq] at hr; subst hr; exact h0
    | cons op ops ih =>
      intro s0 h0 hr
      simp only [h5Run] at hr
      split at hr
      · simp at hr
      · rename_i s1 hs1
        exact ih s1 (handlesOk_step s0 s1 op h0 hs1) hr
  have h := hok ops H5State.start ⟨by simp [H5State.start], by simp [H5State.start], by simp [H5State.start], by simp [H5State.start]⟩ hr
  have hle : ∀ id, s.closed.count id ≤ s.opened.count id := by
    intro id
    by_cases hid : 0 < id
    · by_cases hex : ∃ v, s.var v = some id
      · obtain ⟨v, hv⟩ := hex
        have := h.held v id hid hv
        omega
      · have := h.free id hid (by simpa using hex)
        omega
    · have := h.nonpos id (by omega)
      omega
  refine ⟨hle, ?_, h.held, ?_, ?_⟩
  · intro id hid hopen
    by_contra hne
    have hn : ∀ v, s.var v ≠ some id := by
      intro v hv
      exact hne ⟨v, hv, fun w hw => h.unique w v id hid hw hv⟩
    have := h.free id hid hn
    omega
  · intro id hid
    by_contra hneg
    have := (h.nonpos id (by omega)).2
    rw [List.count_eq_zero] at this
    exact this hid
  · intro hnone
    rw [List.perm_iff_count]
    intro id
    by_cases hid : 0 < id
    · exact (h.free id hid (by simp [hnone])).symm
    · have := h.nonpos id (by omega)
      omega

/-- C114, limit: the assignment of a handle to itself closes it and leaves it empty. -/
theorem handle_self_assignment_closes (s : H5State) (v : ℕ) (a : ℤ) (hv : s.var v = some a) (ha : 0 < a) :
    ∃ s', h5Step s (.assign v v) = some s' ∧ s'.var v = some (-1) ∧ s'.closed = s.closed ++ [a] := by
  refine ⟨⟨_, _, _⟩, by simp only [h5Step, hv, if_true]; rfl, ?_, ?_⟩
  · simp
  · simp [h5Close, ha]

/-- A concrete sequence: a file and a dataset are opened, the dataset is moved and everything is destroyed; a failed call is never closed. -/
example : (h5Run H5State.start [.init 0 10, .init 1 11, .init 2 (-1), .move 3 1, .assign 2 3, .destroy 3, .destroy 2, .destroy 1, .destroy 0]).map
    (fun s => (s.opened, s.closed)) = some ([10, 11], [11, 10]) := by decide

end Fub
